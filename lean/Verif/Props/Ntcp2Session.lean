import Verif.Props.Ntcp2
/-!
# C32, C68: the NTCP2 session reader and writer
-/
namespace Emissary.Ntcp2
open Emissary Emissary.I2np

theorem _root_.List.prefix_append_or {α : Type} {q a b : List α} (h : q <+: a ++ b) :
    q <+: a ∨ ∃ p, q = a ++ p ∧ p <+: b := by
  obtain ⟨t, ht⟩ := h
  rcases List.append_eq_append_iff.mp ht with ⟨as, h1, h2⟩ | ⟨bs, h1, h2⟩
  · left; exact ⟨as, h1.symm⟩
  · right; exact ⟨bs, h1, ⟨t, h2.symm⟩⟩

/-! ## Specification: decoding a whole byte stream -/

/-- Result of decoding a byte stream: batches of messages, why the session ended (if it did), and whether a frame was
authentic but not parseable. -/
structure Res where
  out : List (List Message) := []
  ended : Option Reason := none
  bad : Bool := false
deriving DecidableEq

def Res.cons (ms : List Message) (r : Res) : Res := { r with out := ms :: r.out }
def Res.after (outs : List (List Message)) (r : Res) : Res := { r with out := outs ++ r.out }

/-- A frame of `size` bytes at the head of `rest`; `k` decodes what follows it. -/
def frameSpec (E : Env) (size : Nat) (c : Cipher) (rest : Bytes) (k : Cipher → Bytes → Res) : Res :=
  if rest.isEmpty then {}
  else if size = 0 then { ended := some .io }
  else if rest.length < size then {}
  else
    match c.decrypt E.A [] (rest.take size) with
    | (none, _) => { ended := some .aead }
    | (some data, c') =>
      match parseBlocks data with
      | none => { bad := true }
      | some bs =>
        match terminationOf bs with
        | some r => { ended := some (.remote r) }
        | none => (k c' (rest.drop size)).cons (messagesOf E bs)

/-- The whole stream: two length bytes, a frame of that length, and so on. -/
def decode (E : Env) : Nat → Sip → Cipher → Bytes → Res
  | 0, _, _, _ => {}
  | fuel + 1, sip, c, stream =>
    if stream.length < 2 then {}
    else
      frameSpec E (sip.deobfuscate E.H (unbe (stream.take 2))).1 c (stream.drop 2)
        (fun c' rest => decode E fuel (sip.deobfuscate E.H (unbe (stream.take 2))).2 c' rest)

/-! ## The reader computes `decode` -/

theorem frameSpec_congr (E : Env) (size : Nat) (c : Cipher) (rest : Bytes) (k k' : Cipher → Bytes → Res)
    (h : ∀ c', 0 < size → size ≤ rest.length → k c' (rest.drop size) = k' c' (rest.drop size)) :
    frameSpec E size c rest k = frameSpec E size c rest k' := by
  simp only [frameSpec]
  split
  · rfl
  · split
    · rfl
    · split
      · rfl
      · rename_i h1 h2
        split
        · rfl
        · split
          · rfl
          · split
            · rfl
            · rw [h _ (by omega) (by omega)]

theorem decode_fuel (E : Env) : ∀ (f1 f2 : Nat) (sip : Sip) (c : Cipher) (stream : Bytes),
    stream.length ≤ f1 → stream.length ≤ f2 → decode E f1 sip c stream = decode E f2 sip c stream := by
  intro f1
  induction f1 with
  | zero =>
    intro f2 sip c stream h1 h2
    cases f2 with
    | zero => rfl
    | succ f2 => simp only [decode]; rw [if_pos (by omega)]
  | succ f1 ih =>
    intro f2 sip c stream h1 h2
    cases f2 with
    | zero => simp only [decode]; rw [if_pos (by omega)]
    | succ f2 =>
      simp only [decode]
      split
      · rfl
      · apply frameSpec_congr
        intro c' hs hl
        simp only [List.length_drop] at hl
        exact ih f2 _ _ _ (by simp only [List.length_drop]; omega) (by simp only [List.length_drop]; omega)

/-- The stream decoded with enough fuel. -/
def decodeAll (E : Env) (sip : Sip) (c : Cipher) (stream : Bytes) : Res := decode E stream.length sip c stream

theorem decodeAll_eq (E : Env) (sip : Sip) (c : Cipher) (stream : Bytes) (h : ¬ stream.length < 2) :
    decodeAll E sip c stream =
      frameSpec E (sip.deobfuscate E.H (unbe (stream.take 2))).1 c (stream.drop 2)
        (decodeAll E (sip.deobfuscate E.H (unbe (stream.take 2))).2) := by
  simp only [decodeAll]
  cases hl : stream.length with
  | zero => omega
  | succ n =>
    simp only [decode]
    rw [if_neg h]
    apply frameSpec_congr
    intro c' hs hle
    simp only [List.length_drop] at hle
    exact decode_fuel E _ _ _ _ _ (by simp only [List.length_drop]; omega) (by simp only [List.length_drop]; omega)

theorem decodeAll_short (E : Env) (sip : Sip) (c : Cipher) (stream : Bytes) (h : stream.length < 2) :
    decodeAll E sip c stream = {} := by
  simp only [decodeAll]
  cases hl : stream.length with
  | zero => rfl
  | succ n => simp only [decode]; rw [if_pos h]

/-- What a reader in state `s` will still do with `stream`, in terms of the specification. -/
def Reader.future (E : Env) (s : Reader) (stream : Bytes) : Res :=
  match s.ended with
  | some r => ⟨s.out, some r, false⟩
  | none =>
    Res.after s.out (match s.state with
      | .size off => decodeAll E s.sip s.cipher (s.buf.take off ++ stream)
      | .frame size off => frameSpec E size s.cipher (s.buf.take off ++ stream) (decodeAll E s.sip))

/-- Reader states between reads. -/
def Reader.Wf (s : Reader) : Prop :=
  match s.state with
  | .size off => off < 2 ∧ off ≤ s.buf.length
  | .frame size off => (off < size ∨ off = 0) ∧ off ≤ s.buf.length

theorem after_nil (r : Res) : Res.after [] r = r := rfl
theorem after_cons (o : List (List Message)) (ms : List Message) (r : Res) : Res.after o (r.cons ms) = Res.after (o ++ [ms]) r := by
  simp [Res.after, Res.cons]

theorem frame_future (E : Env) (s : Reader) (size : Nat) (ct rest : Bytes) (hs : s.ended = none) (hct : ct.length = size)
    (hpos : 0 < size)
    (hgood : (frameSpec E size s.cipher (ct ++ rest) (decodeAll E s.sip)).bad = false) :
    (s.frame E ct).future E rest = Res.after s.out (frameSpec E size s.cipher (ct ++ rest) (decodeAll E s.sip)) ∧
      (s.frame E ct).Wf ∨ ((s.frame E ct).ended.isSome = true ∧
        (s.frame E ct).future E rest = Res.after s.out (frameSpec E size s.cipher (ct ++ rest) (decodeAll E s.sip))) := by
  have hne : (ct ++ rest).isEmpty = false := by
    cases ct with
    | nil => simp at hct; omega
    | cons => rfl
  have htake : (ct ++ rest).take size = ct := by rw [← hct]; simp
  have hdrop : (ct ++ rest).drop size = rest := by rw [← hct]; simp
  have hsz : ¬ size = 0 := by omega
  have hlt : ¬ (ct ++ rest).length < size := by rw [List.length_append]; omega
  simp only [frameSpec, hne, hsz, hlt, htake, hdrop, if_false, Bool.false_eq_true] at hgood ⊢
  simp only [Reader.frame]
  cases hd : s.cipher.decrypt E.A [] ct with
  | mk plain cipher =>
    simp only [hd] at hgood ⊢
    cases plain with
    | none =>
      right
      refine ⟨rfl, ?_⟩
      simp [Reader.future, Res.after]
    | some data =>
      simp only at hgood ⊢
      cases hp : parseBlocks data with
      | none => simp [hp] at hgood
      | some bs =>
        simp only [hp] at hgood ⊢
        cases ht : terminationOf bs with
        | some r =>
          right
          refine ⟨rfl, ?_⟩
          simp [Reader.future, Res.after]
        | none =>
          left
          simp only
          refine ⟨?_, by simp [Reader.Wf]⟩
          simp only [Reader.future, hs, List.take_zero, List.nil_append]
          rw [after_cons]

/-- One read: what the reader will do is unchanged. -/
theorem read_future (E : Env) (s : Reader) (hw : s.Wf) (hs : s.ended = none) (data rest : Bytes)
    (hne : data ≠ []) (hlen : data.length ≤ s.space) (hgood : (s.future E (data ++ rest)).bad = false) :
    (s.read E data).future E rest = s.future E (data ++ rest) ∧ ((s.read E data).ended = none → (s.read E data).Wf) := by
  have hdp : 0 < data.length := List.length_pos_iff.mpr hne
  have he : data.isEmpty = false := by cases data <;> simp_all
  obtain ⟨st, buf, cipher, sip, out, ended⟩ := s
  simp only at hs
  subst hs
  cases st with
  | size off =>
    simp only [Reader.Wf] at hw
    simp only [Reader.space] at hlen
    simp only [Reader.read, he, Option.isSome_none, Bool.false_eq_true, if_false]
    have hbl : (buf.take off).length = off := by simp; omega
    by_cases h2 : off + data.length = 2
    · have hpl : place buf off data = (buf.take off ++ data) := rfl
      have hl2 : (buf.take off ++ data).length = 2 := by rw [List.length_append, hbl]; omega
      have ht2 : (buf.take off ++ data).take 2 = buf.take off ++ data := by rw [← hl2, List.take_length]
      simp only [h2, ne_eq, not_true_eq_false, if_false, hpl, ht2]
      refine ⟨?_, fun _ => by simp [Reader.Wf]⟩
      simp only [Reader.future, List.take_zero, List.nil_append]
      rw [decodeAll_eq E sip cipher (buf.take off ++ (data ++ rest)) (by simp only [List.length_append] at hl2 ⊢; omega)]
      have e1 : (buf.take off ++ (data ++ rest)).take 2 = buf.take off ++ data := by
        rw [← List.append_assoc, ← hl2, List.take_left]
      have e2 : (buf.take off ++ (data ++ rest)).drop 2 = rest := by
        rw [← List.append_assoc, ← hl2, List.drop_left]
      rw [e1, e2]
    · simp only [ne_eq, h2, not_false_eq_true, if_true]
      have hpl : (place buf off data).take (off + data.length) = buf.take off ++ data := by
        have : (buf.take off ++ data).length = off + data.length := by rw [List.length_append, hbl]
        rw [← this]; exact List.take_length
      refine ⟨?_, fun _ => ?_⟩
      · simp only [Reader.future, hpl, List.append_assoc]
      · simp only [Reader.Wf, place, List.length_append, hbl]; omega
  | frame size off =>
    simp only [Reader.Wf] at hw
    simp only [Reader.space] at hlen
    simp only [Reader.read, he, Option.isSome_none, Bool.false_eq_true, if_false]
    have hbl : (buf.take off).length = off := by simp; omega
    by_cases h2 : off + data.length < size
    · simp only [h2, if_true]
      have hpl : (place buf off data).take (off + data.length) = buf.take off ++ data := by
        have : (buf.take off ++ data).length = off + data.length := by rw [List.length_append, hbl]
        rw [← this]; exact List.take_length
      refine ⟨?_, fun _ => ?_⟩
      · simp only [Reader.future, hpl, List.append_assoc]
      · simp only [Reader.Wf, place, List.length_append, hbl]; omega
    · simp only [h2, if_false]
      have hl : (buf.take off ++ data).length = size := by rw [List.length_append, hbl]; omega
      have hpl : (place buf off data).take size = buf.take off ++ data := by
        rw [← hl]; exact List.take_length
      rw [hpl]
      simp only [Reader.future, Res.after, ← List.append_assoc] at hgood
      rcases frame_future E ⟨.frame size off, place buf off data, cipher, sip, out, none⟩ size (buf.take off ++ data) rest rfl hl
        (by omega) hgood with ⟨h, hw'⟩ | ⟨hend, h⟩
      · refine ⟨?_, fun _ => hw'⟩
        rw [h]; simp only [Reader.future, List.append_assoc]
      · refine ⟨?_, fun hn => ?_⟩
        · rw [h]; simp only [Reader.future, List.append_assoc]
        · rw [hn] at hend; simp at hend

theorem run_future (E : Env) (ns : List Nat) : ∀ (s : Reader) (stream : Bytes), (s.ended = none → s.Wf) →
    (s.future E stream).bad = false →
    (s.run E stream ns).1.future E (s.run E stream ns).2 = s.future E stream ∧
      ((s.run E stream ns).1.ended = none → (s.run E stream ns).1.Wf) := by
  induction ns with
  | nil => intro s stream hw _; exact ⟨rfl, hw⟩
  | cons n ns ih =>
    intro s stream hw hgood
    simp only [Reader.run]
    by_cases hstop : s.ended.isSome ∨ stream.isEmpty
    · simp only [hstop, if_true]; exact ⟨trivial, hw⟩
    · simp only [hstop, if_false]
      have hs : s.ended = none := by
        cases he : s.ended with
        | none => rfl
        | some r => exact absurd (Or.inl (by simp [he])) hstop
      have hsne : stream ≠ [] := by
        intro h; exact hstop (Or.inr (by simp [h]))
      have hpos : 0 < stream.length := List.length_pos_iff.mpr hsne
      have hw' := hw hs
      by_cases hsp : s.space = 0
      · -- only a frame of length zero offers no room
        have hk : min (max 1 n) s.space = 0 := by rw [hsp]; exact Nat.min_zero _
        rw [hk]
        simp only [List.take_zero, List.drop_zero]
        obtain ⟨st, buf, cipher, sip, out, ended⟩ := s
        simp only at hs
        subst hs
        cases st with
        | size off => simp only [Reader.Wf] at hw'; simp only [Reader.space] at hsp; omega
        | frame size off =>
          simp only [Reader.Wf] at hw'
          simp only [Reader.space] at hsp
          have h0 : off = 0 := by omega
          have hz : size = 0 := by omega
          subst h0; subst hz
          have hread : Reader.read E ⟨.frame 0 0, buf, cipher, sip, out, none⟩ [] =
              ⟨.frame 0 0, buf, cipher, sip, out, some .io⟩ := rfl
          rw [hread]
          have hfut : Reader.future E ⟨.frame 0 0, buf, cipher, sip, out, some .io⟩ stream =
              Reader.future E ⟨.frame 0 0, buf, cipher, sip, out, none⟩ stream := by
            have hne : stream.isEmpty = false := by cases stream <;> simp_all
            simp [Reader.future, frameSpec, hne, Res.after]
          obtain ⟨i1, i2⟩ := ih ⟨.frame 0 0, buf, cipher, sip, out, some .io⟩ stream (by simp) (by rw [hfut]; exact hgood)
          exact ⟨i1.trans hfut, i2⟩
      · have hk1 : 0 < min (max 1 n) s.space := by omega
        have hk2 : min (max 1 n) s.space ≤ s.space := Nat.min_le_right _ _
        generalize min (max 1 n) s.space = k at *
        have hsplit : stream.take k ++ stream.drop k = stream := List.take_append_drop _ _
        have htne : stream.take k ≠ [] := by
          intro h
          have := congrArg List.length h
          rw [List.length_take, List.length_nil] at this
          omega
        obtain ⟨r1, r2⟩ := read_future E s hw' hs (stream.take k) (stream.drop k) htne (by rw [List.length_take]; omega) (by rw [hsplit]; exact hgood)
        rw [hsplit] at r1
        obtain ⟨i1, i2⟩ := ih (s.read E (stream.take k)) (stream.drop k) r2 (by rw [r1]; exact hgood)
        exact ⟨i1.trans r1, i2⟩

/-- A new session's reader. -/
def Reader.new (c : Cipher) (sip : Sip) : Reader := { cipher := c, sip := sip }

/-- C32: as long as every authentic frame parses, what a session hands on and whether it ends depends only on the
bytes received: however TCP cuts the stream into reads, once the stream has been read (or the session has ended) the
result is that of decoding the stream as a whole.
(Partial: an authentic frame that does not parse breaks this, see `C32_unparseable_frame_desynchronises_violated`.) -/
theorem C32_segmentation_independent_partial (E : Env) (c : Cipher) (sip : Sip) (stream : Bytes) (ns : List Nat)
    (hgood : (decodeAll E sip c stream).bad = false)
    (hdone : ((Reader.new c sip).run E stream ns).2 = [] ∨ ((Reader.new c sip).run E stream ns).1.ended.isSome = true) :
    ((Reader.new c sip).run E stream ns).1.out = (decodeAll E sip c stream).out ∧
    ((Reader.new c sip).run E stream ns).1.ended = (decodeAll E sip c stream).ended := by
  have h0 : (Reader.new c sip).future E stream = decodeAll E sip c stream := by
    simp [Reader.future, Reader.new, Res.after]
  obtain ⟨h1, h2⟩ := run_future E ns (Reader.new c sip) stream (fun _ => by simp [Reader.Wf, Reader.new]) (by rw [h0]; exact hgood)
  rw [h0] at h1
  generalize hf : (Reader.new c sip).run E stream ns = f at *
  obtain ⟨s, rest⟩ := f
  simp only at h1 h2 hdone ⊢
  rw [← h1]
  cases he : s.ended with
  | some r => simp [Reader.future, he]
  | none =>
    have hrest : rest = [] := by
      rcases hdone with h | h
      · exact h
      · rw [he] at h; simp at h
    subst hrest
    have hw := h2 he
    obtain ⟨st, buf, cipher, sip', out, ended⟩ := s
    simp only at he
    subst he
    cases st with
    | size off =>
      simp only [Reader.Wf] at hw
      have : decodeAll E sip' cipher (buf.take off) = {} := decodeAll_short _ _ _ _ (by simp; omega)
      simp [Reader.future, Res.after, this]
    | frame size off =>
      simp only [Reader.Wf] at hw
      have : frameSpec E size cipher (buf.take off) (decodeAll E sip') = {} := by
        have hl : (buf.take off).length = off := by simp; omega
        simp only [frameSpec]
        split
        · rfl
        · rename_i hne
          have : 0 < off := by
            rw [← hl]; apply List.length_pos_iff.mpr; intro h; rw [h] at hne; exact hne rfl
          rw [if_neg (by omega), if_pos (by omega)]
      simp [Reader.future, Res.after, this]

/-- C32, two segmentations of the same stream give the same result. -/
theorem C32_two_segmentations_agree_partial (E : Env) (c : Cipher) (sip : Sip) (stream : Bytes) (ns ns' : List Nat)
    (hgood : (decodeAll E sip c stream).bad = false)
    (h : ((Reader.new c sip).run E stream ns).2 = []) (h' : ((Reader.new c sip).run E stream ns').2 = []) :
    ((Reader.new c sip).run E stream ns).1.out = ((Reader.new c sip).run E stream ns').1.out ∧
    ((Reader.new c sip).run E stream ns).1.ended = ((Reader.new c sip).run E stream ns').1.ended := by
  obtain ⟨a, b⟩ := C32_segmentation_independent_partial E c sip stream ns hgood (Or.inl h)
  obtain ⟨a', b'⟩ := C32_segmentation_independent_partial E c sip stream ns' hgood (Or.inl h')
  exact ⟨a.trans a'.symm, b.trans b'.symm⟩

/-- C32 fails when an authentic frame does not parse (say it has an unknown block type): for *every* such frame `ct`, the reader
does not go back to reading a length. Read at once, it takes the next `size` bytes of the stream, which begin with the
length of the next frame, for another frame; read in two parts, it even keeps the first part and
completes it with the following bytes. -/
theorem C32_unparseable_frame_desynchronises_violated (E : Env) (buf : Bytes) (c c' : Cipher) (sip : Sip) (out : List (List Message))
    (ct1 ct2 data next : Bytes) (h1 : ct1 ≠ []) (h2 : ct2 ≠ [])
    (hdec : c.decrypt E.A [] (ct1 ++ ct2) = (some data, c')) (hbad : parseBlocks data = none)
    (hnext : next.length = (ct1 ++ ct2).length) :
    let s : Reader := ⟨.frame (ct1 ++ ct2).length 0, buf, c, sip, out, none⟩
    ((s.read E (ct1 ++ ct2)).state = .frame (ct1 ++ ct2).length 0 ∧
      ((s.read E (ct1 ++ ct2)).read E next) = (Reader.frame E ⟨.frame (ct1 ++ ct2).length 0, next, c', sip, out, none⟩ next)) ∧
    ((s.read E ct1).read E ct2).state = .frame (ct1 ++ ct2).length ct1.length := by
  intro s
  have e1 : ct1.isEmpty = false := by cases ct1 <;> simp_all
  have e2 : ct2.isEmpty = false := by cases ct2 <;> simp_all
  have hp1 : 0 < ct1.length := List.length_pos_iff.mpr h1
  have hp2 : 0 < ct2.length := List.length_pos_iff.mpr h2
  have e12 : (ct1 ++ ct2).isEmpty = false := by cases ct1 <;> simp_all
  have htk : (ct1 ++ ct2).take (ct1.length + ct2.length) = ct1 ++ ct2 := by rw [← List.length_append, List.take_length]
  have hr : s.read E (ct1 ++ ct2) = ⟨.frame (ct1 ++ ct2).length 0, ct1 ++ ct2, c', sip, out, none⟩ := by
    simp [s, Reader.read, place, Reader.frame, htk, hdec, hbad, h1]
  have enext : next.isEmpty = false := by
    cases next with
    | nil => simp at hnext; omega
    | cons => rfl
  refine ⟨⟨by rw [hr], ?_⟩, ?_⟩
  · rw [hr]
    simp only [Reader.read, enext, Option.isSome_none, Bool.false_eq_true, if_false, place, List.take_zero, List.nil_append, Nat.zero_add,
      hnext, Nat.lt_irrefl]
    congr 1
    rw [← hnext, List.take_length]
  · have hs1 : s.read E ct1 = ⟨.frame (ct1 ++ ct2).length ct1.length, ct1, c, sip, out, none⟩ := by
      simp [s, Reader.read, place, h1, hp2]
    rw [hs1]
    simp [Reader.read, place, h2, Reader.frame, htk, hdec, hbad]

/-! ## The writer -/

/-- Frames of a list of messages, as bytes on the wire. -/
def framesOf (E : Env) : Sip → Cipher → List Bytes → Bytes
  | _, _, [] => []
  | sip, c, m :: ms =>
    match c.encrypt E.A [] (newI2np m) with
    | (none, _) => []
    | (some ct, c') =>
      let r := sip.obfuscate E.H (ct.length % 65536)
      be 2 r.1 ++ ct ++ framesOf E r.2 c' ms

/-- Writer together with the messages it has taken from the channel. -/
def Writer.run (E : Env) (w : Writer) : List WOp → Writer × List Bytes
  | [] => (w, [])
  | op :: ops =>
    let taken := match op, w.state with
      | .cmd m, .getMessage => if w.ended ∨ ¬ w.cipher.nonce + 1 < 2 ^ 64 then [] else [m]
      | _, _ => []
    let r := (w.step E op).run E ops
    (r.1, taken ++ r.2)

/-- Bytes of the current frame not yet written. -/
def Writer.rest (w : Writer) : Bytes :=
  match w.state with
  | .getMessage => []
  | .sendSize off size m => size.drop off ++ m
  | .sendMessage off m => m.drop off

theorem take_drop_drop (l : Bytes) (off k : Nat) : (l.drop off).take k ++ l.drop (off + k) = l.drop off := by
  rw [← List.drop_drop]; exact List.take_append_drop k _

theorem writer_run (E : Env) (ops : List WOp) : ∀ w : Writer,
    let r := w.run E ops
    r.1.out ++ r.1.rest = w.out ++ w.rest ++ framesOf E w.sip w.cipher r.2 := by
  induction ops with
  | nil => intro w; simp [Writer.run, framesOf]
  | cons op ops ih =>
    intro w
    simp only [Writer.run]
    have ih := ih (w.step E op)
    simp only at ih
    rw [ih]
    obtain ⟨st, c, sip, out, ended⟩ := w
    cases op with
    | cmd m =>
      cases st with
      | getMessage =>
        simp only [Writer.step]
        cases ended with
        | true => simp
        | false =>
          simp only [Bool.false_eq_true, if_false, false_or]
          by_cases hn : c.nonce + 1 < 2 ^ 64
          · have henc : c.encrypt E.A [] (newI2np m) =
                (some (E.A.enc c.key (nonceBytes c.nonce) [] (newI2np m)), { c with nonce := c.nonce + 1 }) := by
              simp only [Cipher.encrypt, nonceNext, hn, if_true]
            simp only [henc, hn, not_true_eq_false, if_false, Writer.rest, List.drop_zero, List.singleton_append, framesOf,
              List.append_nil, List.append_assoc]
          · have henc : c.encrypt E.A [] (newI2np m) = (none, c) := by
              simp only [Cipher.encrypt, nonceNext, hn, if_false]
            simp only [henc, hn, not_false_eq_true, if_true, Writer.rest, List.nil_append]
      | sendSize off size msg =>
        have : Writer.step E ⟨.sendSize off size msg, c, sip, out, ended⟩ (.cmd m) = ⟨.sendSize off size msg, c, sip, out, ended⟩ := by
          simp only [Writer.step]; cases ended <;> rfl
        rw [this]; rfl
      | sendMessage off msg =>
        have : Writer.step E ⟨.sendMessage off msg, c, sip, out, ended⟩ (.cmd m) = ⟨.sendMessage off msg, c, sip, out, ended⟩ := by
          simp only [Writer.step]; cases ended <;> rfl
        rw [this]; rfl
    | write n =>
      simp only [List.nil_append]
      cases ended with
      | true => simp [Writer.step]
      | false =>
        cases st with
        | getMessage => simp [Writer.step]
        | sendSize off size msg =>
          simp only [Writer.step, Bool.false_eq_true, if_false]
          by_cases hk : min n (size.length - off) = 0
          · simp only [hk, if_true, Writer.rest]
          · simp only [hk, if_false]
            have := take_drop_drop size off (min n (size.length - off))
            split
            · rename_i heq
              have hnil : size.drop (off + min n (size.length - off)) = [] := by
                apply List.drop_eq_nil_of_le; omega
              rw [hnil, List.append_nil] at this
              simp only [Writer.rest, List.drop_zero, this, List.append_assoc]
            · simp only [Writer.rest]
              congr 1
              rw [List.append_assoc, ← List.append_assoc (List.take _ _), this]
        | sendMessage off msg =>
          simp only [Writer.step, Bool.false_eq_true, if_false]
          by_cases hk : min n (msg.length - off) = 0
          · simp only [hk, if_true, Writer.rest]
          · simp only [hk, if_false]
            have := take_drop_drop msg off (min n (msg.length - off))
            split
            · rename_i heq
              have hnil : msg.drop (off + min n (msg.length - off)) = [] := by
                apply List.drop_eq_nil_of_le; omega
              rw [hnil, List.append_nil] at this
              simp only [Writer.rest, this, List.append_nil]
            · simp only [Writer.rest]
              congr 1
              rw [List.append_assoc, this]

/-! ## C68: end to end -/

/-- The AEAD decrypts what it encrypted and adds a 16-byte tag. -/
structure Aead.Lawful (A : Aead) : Prop where
  dec_enc : ∀ k n ad p, A.dec k n ad (A.enc k n ad p) = some p
  len : ∀ k n ad p, (A.enc k n ad p).length = p.length + 16

/-- A message the router can send in one frame: valid fields and at most 65,507 bytes of payload. -/
def Sendable (m : Message) : Prop := (Block.i2np m).Ok ∧ m.payload.length ≤ 65507

/-- What the receiver hands on for a message: itself, or nothing if it has expired. -/
def arrival (E : Env) (m : Message) : List Message := if E.expired m then [] else [m]

theorem frame_decodes (E : Env) (hA : E.A.Lawful) (rx tx : Sip) (hsync : rx.receiver = tx.sender) (c : Cipher)
    (m : Message) (hm : Sendable m) (p : Bytes) (ct : Bytes) (c' : Cipher)
    (henc : c.encrypt E.A [] (newI2np m.serializeShort) = (some ct, c')) :
    let r := tx.obfuscate E.H (ct.length % 65536)
    ct.length = m.payload.length + 28 ∧
    decodeAll E rx c (be 2 r.1 ++ ct ++ p) = (decodeAll E { rx with receiver := r.2.sender } c' p).cons (arrival E m) ∧
    (∀ q, q <+: (be 2 r.1 ++ ct) → q ≠ be 2 r.1 ++ ct → decodeAll E rx c q = {}) := by
  intro r
  have hn : c.nonce + 1 < 2 ^ 64 := by
    by_cases h : c.nonce + 1 < 2 ^ 64
    · exact h
    · simp only [Cipher.encrypt, nonceNext, h, if_false] at henc; simp at henc
  simp only [Cipher.encrypt, nonceNext, hn, if_true, Prod.mk.injEq, Option.some.injEq] at henc
  obtain ⟨hct, hc'⟩ := henc
  have hlen : ct.length = m.payload.length + 28 := by
    rw [← hct, hA.len]; simp [newI2np, Message.serializeShort]; omega
  have hsm : ct.length % 65536 = ct.length := Nat.mod_eq_of_lt (by have := hm.2; omega)
  -- the receiver recovers the length
  have hmask : ∀ t : Bytes, unbe ((be 2 r.1 ++ t).take 2) = r.1 := by
    intro t
    have : (be 2 r.1 ++ t).take 2 = be 2 r.1 := by
      have h2 : (be 2 r.1).length = 2 := be_length _ _
      rw [← h2]; simp
    rw [this, unbe_be]
    apply Nat.mod_eq_of_lt
    have h1 : ct.length < 2 ^ 16 := by have := hm.2; omega
    have h3 : (tx.sender.next E.H).1 < 2 ^ 16 := Nat.mod_lt _ (by decide)
    have : ct.length ^^^ (tx.sender.next E.H).1 < 2 ^ 16 := Nat.xor_lt_two_pow h1 h3
    simpa [r, Sip.obfuscate, hsm] using this
  have hde : rx.deobfuscate E.H r.1 = (ct.length, { rx with receiver := r.2.sender }) := by
    simp only [Sip.deobfuscate, hsync, r, Sip.obfuscate, hsm, xor_cancel]
  refine ⟨hlen, ?_, ?_⟩
  · have hle : ¬ (be 2 r.1 ++ ct ++ p).length < 2 := by simp [List.length_append]
    rw [decodeAll_eq E rx c _ hle]
    have hm' := hmask (ct ++ p)
    rw [← List.append_assoc] at hm'
    rw [hm', hde]
    have hdrop : (be 2 r.1 ++ ct ++ p).drop 2 = ct ++ p := by
      have h2 : (be 2 r.1).length = 2 := be_length _ _
      rw [List.append_assoc, ← h2]; simp
    rw [hdrop]
    have hne : (ct ++ p).isEmpty = false := by
      cases ct with
      | nil => simp at hlen
      | cons => rfl
    have h0 : ¬ ct.length = 0 := by omega
    have h1 : ¬ (ct ++ p).length < ct.length := by simp
    have hdec : c.decrypt E.A [] ((ct ++ p).take ct.length) = (some (newI2np m.serializeShort), c') := by
      simp only [List.take_left, Cipher.decrypt, nonceNext, hn, if_true]
      rw [← hct, hA.dec_enc, hc']
    have hpb : parseBlocks (newI2np m.serializeShort) = some [.i2np m] := by
      have := C30_blocks_roundtrip [.i2np m] (by simp) (by simpa using hm.1)
      simpa [Block.wire, newI2np] using this
    simp only [frameSpec, hne, h0, h1, hdec, hpb, if_false, Bool.false_eq_true, List.drop_left]
    have ht : terminationOf [Block.i2np m] = none := rfl
    rw [ht]
    have hmsg : messagesOf E [Block.i2np m] = arrival E m := by
      simp only [messagesOf, arrival, List.filterMap_cons, List.filterMap_nil]
      cases E.expired m <;> rfl
    rw [hmsg]
  · intro q hq hqne
    obtain ⟨t, ht⟩ := hq
    have hql : q.length < 2 + ct.length := by
      have := congrArg List.length ht
      simp only [List.length_append, be_length] at this
      rcases Nat.lt_or_ge q.length (2 + ct.length) with h | h
      · exact h
      · exfalso
        have : t = [] := List.length_eq_zero_iff.mp (by omega)
        rw [this, List.append_nil] at ht
        exact hqne ht
    by_cases h2 : q.length < 2
    · exact decodeAll_short _ _ _ _ h2
    · rw [decodeAll_eq E rx c _ h2]
      have hqt : q.take 2 = be 2 r.1 := by
        have : (q ++ t).take 2 = be 2 r.1 := by
          rw [ht]
          have h2 : (be 2 r.1).length = 2 := be_length _ _
          rw [← h2]; simp
        rwa [List.take_append_of_le_length (by omega)] at this
      have hu : unbe (q.take 2) = r.1 := by
        have := hmask []
        rw [List.append_nil, List.take_of_length_le (by simp)] at this
        rw [hqt]; exact this
      rw [hu, hde]
      simp only [frameSpec]
      split
      · rfl
      · rw [if_neg (by omega), if_pos (by simp only [List.length_drop]; omega)]

/-- Every prefix of the frames of `ms` decodes to the arrivals of a prefix of `ms`; all of the frames decode to all of the arrivals. -/
theorem frames_decode (E : Env) (hA : E.A.Lawful) (ms : List Message) (hms : ∀ m ∈ ms, Sendable m) :
    ∀ (rx tx : Sip) (_ : rx.receiver = tx.sender) (c : Cipher), c.nonce + ms.length < 2 ^ 64 →
    decodeAll E rx c (framesOf E tx c (ms.map Message.serializeShort)) = ⟨ms.map (arrival E), none, false⟩ ∧
    ∀ q, q <+: framesOf E tx c (ms.map Message.serializeShort) →
      ∃ k, k ≤ ms.length ∧ decodeAll E rx c q = ⟨(ms.take k).map (arrival E), none, false⟩ := by
  induction ms with
  | nil =>
    intro rx tx _ c _
    refine ⟨decodeAll_short _ _ _ _ (by simp [framesOf]), ?_⟩
    intro q hq
    have : q = [] := by simpa [framesOf] using hq
    subst this
    exact ⟨0, Nat.le_refl _, decodeAll_short _ _ _ _ (by simp)⟩
  | cons m ms ih =>
    intro rx tx hsync c hn
    simp only [List.length_cons] at hn
    have hn1 : c.nonce + 1 < 2 ^ 64 := by omega
    have henc : c.encrypt E.A [] (newI2np m.serializeShort) =
        (some (E.A.enc c.key (nonceBytes c.nonce) [] (newI2np m.serializeShort)), { c with nonce := c.nonce + 1 }) := by
      simp only [Cipher.encrypt, nonceNext, hn1, if_true]
    simp only [List.map_cons, framesOf, henc]
    generalize hct : E.A.enc c.key (nonceBytes c.nonce) [] (newI2np m.serializeShort) = ct at *
    have hmS := hms m (by simp)
    obtain ⟨i1, i2⟩ := ih (fun x hx => hms x (by simp [hx])) { rx with receiver := (tx.obfuscate E.H (ct.length % 65536)).2.sender }
      (tx.obfuscate E.H (ct.length % 65536)).2 rfl { c with nonce := c.nonce + 1 } (by simp only; omega)
    constructor
    · obtain ⟨_, f2, _⟩ := frame_decodes E hA rx tx hsync c m hmS
        (framesOf E (tx.obfuscate E.H (ct.length % 65536)).2 { c with nonce := c.nonce + 1 } (ms.map Message.serializeShort)) ct _ henc
      rw [f2, i1]
      simp [Res.cons]
    · intro q hq
      generalize hF : framesOf E (tx.obfuscate E.H (ct.length % 65536)).2 { c with nonce := c.nonce + 1 } (ms.map Message.serializeShort) = F at *
      obtain ⟨_, _, f3⟩ := frame_decodes E hA rx tx hsync c m hmS [] ct _ henc
      generalize hfr : be 2 (tx.obfuscate E.H (ct.length % 65536)).1 ++ ct = fr at *
      rcases List.prefix_append_or hq with h | ⟨p, rfl, hp⟩
      · by_cases heq : q = fr
        · subst heq
          obtain ⟨_, f2, _⟩ := frame_decodes E hA rx tx hsync c m hmS [] ct _ henc
          rw [hfr, List.append_nil] at f2
          refine ⟨1, by simp, ?_⟩
          rw [f2, decodeAll_short _ _ _ _ (by simp)]
          simp [Res.cons]
        · exact ⟨0, Nat.zero_le _, by rw [f3 q h heq]; simp⟩
      · obtain ⟨k, hk, hd⟩ := i2 p hp
        obtain ⟨_, f2, _⟩ := frame_decodes E hA rx tx hsync c m hmS p ct _ henc
        rw [hfr] at f2
        refine ⟨k + 1, by simp; omega, ?_⟩
        rw [f2, hd]
        simp [Res.cons]

/-- What happens at the sending side: a message is waiting in the session's queue when the writer runs, or the socket takes some bytes. -/
inductive SendOp where
  | message (m : Message)
  | socket (n : Nat)

def SendOp.op : SendOp → WOp
  | .message m => .cmd m.serializeShort
  | .socket n => .write n

/-- The messages the writer has taken from the queue, in order: those that were waiting while it was not busy with a frame. -/
def accepted (E : Env) (w : Writer) : List SendOp → List Message
  | [] => []
  | .message m :: ops =>
    (match w.state with
      | .getMessage => if w.ended ∨ ¬ w.cipher.nonce + 1 < 2 ^ 64 then [] else [m]
      | _ => []) ++ accepted E (w.step E (SendOp.message m).op) ops
  | .socket n :: ops => accepted E (w.step E (SendOp.socket n).op) ops

theorem accepted_run (E : Env) (ops : List SendOp) : ∀ w : Writer,
    (w.run E (ops.map SendOp.op)).2 = (accepted E w ops).map Message.serializeShort := by
  induction ops with
  | nil => intro w; rfl
  | cons op ops ih =>
    intro w
    cases op with
    | message m =>
      simp only [List.map_cons, Writer.run, accepted, SendOp.op, ih]
      cases w.state with
      | getMessage =>
        simp only [List.map_append]
        congr 1
        split <;> rfl
      | sendSize => simp
      | sendMessage => simp
    | socket n => simp only [List.map_cons, Writer.run, accepted, SendOp.op, ih, List.nil_append]

theorem accepted_mem (E : Env) (ops : List SendOp) : ∀ (w : Writer) (m : Message), m ∈ accepted E w ops → SendOp.message m ∈ ops := by
  induction ops with
  | nil => intro w m h; simp [accepted] at h
  | cons op ops ih =>
    intro w m h
    cases op with
    | message m' =>
      simp only [accepted, List.mem_append] at h
      rcases h with h | h
      · cases hs : w.state with
        | getMessage =>
          simp only [hs] at h
          split at h
          · simp at h
          · have : m = m' := by simpa using h
            subst this; simp
        | sendSize => simp [hs] at h
        | sendMessage => simp [hs] at h
      · exact List.mem_cons_of_mem _ (ih _ _ h)
    | socket n => exact List.mem_cons_of_mem _ (ih _ _ h)

/-- A new session's writer. -/
def Writer.new (c : Cipher) (sip : Sip) : Writer := { cipher := c, sip := sip }

/-- C68: end to end. For any sequence of messages and partial socket writes at the sender, any prefix of its output having
arrived at the receiver, cut in any way into reads: once the receiver has read what arrived, it has handed on exactly
the first `k` of the accepted messages, in order, each once (a message that has expired is
dropped), and the session goes on. When the sender is idle and all has arrived, that is all of them.
(Partial: for messages of at most 65,507 bytes of payload; see `C68_oversized_message_misframed_violated`.) -/
theorem C68_in_order_exactly_once_partial (E : Env) (hA : E.A.Lawful) (c : Cipher) (tx rx : Sip)
    (hsync : rx.receiver = tx.sender) (ops : List SendOp) (hops : ∀ m, SendOp.message m ∈ ops → Sendable m)
    (hnonce : c.nonce + (accepted E (Writer.new c tx) ops).length < 2 ^ 64)
    (arrived : Bytes) (harr : arrived <+: ((Writer.new c tx).run E (ops.map SendOp.op)).1.out) (ns : List Nat)
    (hread : ((Reader.new c rx).run E arrived ns).2 = []) :
    (∃ k, ((Reader.new c rx).run E arrived ns).1.out = ((accepted E (Writer.new c tx) ops).take k).map (arrival E)) ∧
    ((Reader.new c rx).run E arrived ns).1.ended = none ∧
    (((Writer.new c tx).run E (ops.map SendOp.op)).1.state = .getMessage →
      arrived = ((Writer.new c tx).run E (ops.map SendOp.op)).1.out →
      ((Reader.new c rx).run E arrived ns).1.out = (accepted E (Writer.new c tx) ops).map (arrival E)) := by
  have hrun := writer_run E (ops.map SendOp.op) (Writer.new c tx)
  simp only [accepted_run] at hrun
  have h0 : (Writer.new c tx).out ++ (Writer.new c tx).rest = [] := rfl
  rw [h0, List.nil_append] at hrun
  have hsip : (Writer.new c tx).sip = tx := rfl
  have hcip : (Writer.new c tx).cipher = c := rfl
  rw [hsip, hcip] at hrun
  obtain ⟨f1, f2⟩ := frames_decode E hA (accepted E (Writer.new c tx) ops) (fun m hm => hops m (accepted_mem E ops _ m hm))
    rx tx hsync c hnonce
  have hpre : arrived <+: framesOf E tx c ((accepted E (Writer.new c tx) ops).map Message.serializeShort) := by
    rw [← hrun]; exact harr.trans (List.prefix_append _ _)
  obtain ⟨k, hk, hd⟩ := f2 arrived hpre
  obtain ⟨r1, r2⟩ := C32_segmentation_independent_partial E c rx arrived ns (by rw [hd]) (Or.inl hread)
  rw [hd] at r1 r2
  refine ⟨⟨k, r1⟩, r2, ?_⟩
  intro hidle hall
  have hrest : ((Writer.new c tx).run E (ops.map SendOp.op)).1.rest = [] := by simp only [Writer.rest, hidle]
  rw [hrest, List.append_nil] at hrun
  obtain ⟨q1, q2⟩ := C32_segmentation_independent_partial E c rx arrived ns (by rw [hd]) (Or.inl hread)
  rw [q1, hall, hrun, f1]

/-- C68 fails for larger messages: every message with more than 65,507 bytes of payload (and less than 131,044) is sent
in a frame whose announced length is not its length: the receiver stops short of its end. -/
theorem C68_oversized_message_misframed_violated (E : Env) (hA : E.A.Lawful) (c : Cipher) (tx rx : Sip)
    (hsync : rx.receiver = tx.sender) (m : Message) (hbig : 65507 < m.payload.length) (hn : c.nonce + 1 < 2 ^ 64) (n : Nat)
    (hw : 2 ≤ n) :
    let w := (Writer.new c tx).run E [.cmd m.serializeShort, .write n]
    ∃ size ct, w.1.state = .sendMessage 0 ct ∧ w.1.out = size ∧ size.length = 2 ∧ ct.length = m.payload.length + 28 ∧
      ((Reader.new c rx).read E size).state = .frame ((m.payload.length + 28) % 65536) 0 ∧
      (m.payload.length + 28) % 65536 < ct.length := by
  intro w
  have hct : (E.A.enc c.key (nonceBytes c.nonce) [] (newI2np m.serializeShort)).length = m.payload.length + 28 := by
    rw [hA.len]; simp [newI2np, Message.serializeShort]; omega
  have henc : c.encrypt E.A [] (newI2np m.serializeShort) =
      (some (E.A.enc c.key (nonceBytes c.nonce) [] (newI2np m.serializeShort)), { c with nonce := c.nonce + 1 }) := by
    simp only [Cipher.encrypt, nonceNext, hn, if_true]
  generalize hg : E.A.enc c.key (nonceBytes c.nonce) [] (newI2np m.serializeShort) = ct at *
  have hmin : min n 2 = 2 := by omega
  refine ⟨be 2 (tx.obfuscate E.H (ct.length % 65536)).1, ct, ?_, ?_, be_length _ _, hct, ?_, ?_⟩
  · simp [w, Writer.run, Writer.step, Writer.new, henc, hmin]
  · simp [w, Writer.run, Writer.step, Writer.new, henc, hmin]
    exact List.take_of_length_le (by simp)
  · have hlen : (be 2 (tx.obfuscate E.H (ct.length % 65536)).1).length = 2 := be_length _ _
    have hemp : (be 2 (tx.obfuscate E.H (ct.length % 65536)).1).isEmpty = false := by
      rw [List.isEmpty_eq_false_iff]; intro h; rw [h] at hlen; simp at hlen
    have hpl : (place [] 0 (be 2 (tx.obfuscate E.H (ct.length % 65536)).1)).take 2 = be 2 (tx.obfuscate E.H (ct.length % 65536)).1 :=
      List.take_of_length_le (by simp [place])
    have hub : unbe (be 2 (tx.obfuscate E.H (ct.length % 65536)).1) = (tx.obfuscate E.H (ct.length % 65536)).1 := by
      rw [unbe_be]
      apply Nat.mod_eq_of_lt
      have h1 : ct.length % 65536 < 2 ^ 16 := Nat.mod_lt _ (by decide)
      have h3 : (tx.sender.next E.H).1 < 2 ^ 16 := Nat.mod_lt _ (by decide)
      have : ct.length % 65536 ^^^ (tx.sender.next E.H).1 < 2 ^ 16 := Nat.xor_lt_two_pow h1 h3
      simpa [Sip.obfuscate] using this
    have hde : (rx.deobfuscate E.H (tx.obfuscate E.H (ct.length % 65536)).1).1 = ct.length % 65536 := by
      simp only [Sip.deobfuscate, hsync, Sip.obfuscate, xor_cancel]
    simp only [Reader.read, Reader.new, hemp, hlen, Option.isSome_none, Bool.false_eq_true, if_false, Nat.zero_add,
      ne_eq, not_true_eq_false, hpl, hub, hde]
    rw [hct]
  · rw [hct]; have := Nat.mod_lt (m.payload.length + 28) (show 0 < 65536 by decide); omega

/-! Two messages, one of them expired, written one byte at a time and read in odd pieces; toy primitives. -/

def toyA : Aead where
  enc := fun _ _ _ p => p ++ List.replicate 16 7
  dec := fun _ _ _ c => if 16 ≤ c.length then some (c.take (c.length - 16)) else none

theorem toyA_lawful : toyA.Lawful where
  dec_enc := by intro k n ad p; simp [toyA]
  len := by intro k n ad p; simp [toyA]

def toyE : Env := ⟨toyH, toyA, fun m => m.id == 9⟩

def toyOps : List SendOp :=
  [.message ⟨.data, 8, 5000000000, [1, 2, 3]⟩] ++ (List.replicate 33 (.socket 1)) ++
  [.message ⟨.data, 9, 5000000000, [4, 5]⟩, .socket 2, .message ⟨.data, 10, 5000000000, [6]⟩, .socket 20, .socket 20]

example :
    let w := (Writer.new ⟨[1], 0⟩ (Sip.initiator toyH [1] [2])).run toyE (toyOps.map SendOp.op)
    let r := (Reader.new ⟨[1], 0⟩ (Sip.responder toyH [1] [2])).run toyE w.1.out [1, 1, 5, 40, 2, 7, 7, 7, 7, 7]
    (accepted toyE (Writer.new ⟨[1], 0⟩ (Sip.initiator toyH [1] [2])) toyOps).length = 2 ∧ w.1.state = .getMessage ∧
    r.2 = [] ∧ r.1.out = [[⟨.data, 8, 5000000000, [1, 2, 3]⟩], []] ∧ r.1.ended = none := by decide +kernel

example : (Sip.responder toyH [1] [2]).receiver = (Sip.initiator toyH [1] [2]).sender := by decide +kernel

/-- An authentic frame with an unknown block type, as the hypotheses of the violated case require. -/
example : parseBlocks [200, 0, 0] = none ∧
    (Cipher.decrypt toyA ⟨[1], 0⟩ [] ([200, 0, 0] ++ List.replicate 16 7)).1 = some [200, 0, 0] := by decide +kernel

end Emissary.Ntcp2
