import Verif.Model.Ntcp2
import Verif.Props.I2np
import Verif.Props.Primitives
/-!
# C30, C31, C33, C34: NTCP2 codecs, length obfuscation, cipher nonces
-/
namespace Emissary.Ntcp2
open Emissary Emissary.I2np Emissary.Prim

/-! ## C31 -/

/-- C31: initiator options. -/
theorem C31_initiator_options_roundtrip (o : InitiatorOptions) (r : Bytes) (h1 : o.networkId < 2 ^ 8) (h2 : o.version < 2 ^ 8)
    (h3 : o.paddingLength < 2 ^ 16) (h4 : o.m3p2Len < 2 ^ 16) (h5 : o.timestamp < 2 ^ 32) :
    o.serialize.length = 16 ∧ InitiatorOptions.parse (o.serialize ++ r) = some (o, r) := by
  refine ⟨by simp [InitiatorOptions.serialize], ?_⟩
  have e1 : o.networkId % 256 ^ 1 = o.networkId := Nat.mod_eq_of_lt (by omega)
  have e2 : o.version % 256 ^ 1 = o.version := Nat.mod_eq_of_lt (by omega)
  have e3 : o.paddingLength % 256 ^ 2 = o.paddingLength := Nat.mod_eq_of_lt (by omega)
  have e4 : o.m3p2Len % 256 ^ 2 = o.m3p2Len := Nat.mod_eq_of_lt (by omega)
  have e5 : o.timestamp % 256 ^ 4 = o.timestamp := Nat.mod_eq_of_lt (by omega)
  simp only [InitiatorOptions.parse, InitiatorOptions.serialize, List.append_assoc, beU_be, bind_some_pair, e1, e2, e3, e4, e5]
  rfl

/-- C31: responder options. -/
theorem C31_responder_options_roundtrip (o : ResponderOptions) (r : Bytes) (h1 : o.paddingLength < 2 ^ 16)
    (h2 : o.timestamp < 2 ^ 32) :
    o.serialize.length = 16 ∧ ResponderOptions.parse (o.serialize ++ r) = some (o, r) := by
  refine ⟨by simp [ResponderOptions.serialize], ?_⟩
  have e1 : o.paddingLength % 256 ^ 2 = o.paddingLength := Nat.mod_eq_of_lt (by omega)
  have e2 : o.timestamp % 256 ^ 4 = o.timestamp := Nat.mod_eq_of_lt (by omega)
  simp only [ResponderOptions.parse, ResponderOptions.serialize, List.append_assoc, beU_be, bind_some_pair, e1, e2]
  rfl

example : InitiatorOptions.parse ((InitiatorOptions.mk 2 2 31 600 1700000000).serialize ++ [9]) =
    some (⟨2, 2, 31, 600, 1700000000⟩, [9]) := by decide +kernel

/-! ## C30 -/

/-- NTCP2 wire form of a block: type, 16-bit size, contents. -/
def Block.wire : Block → Bytes
  | .dateTime t => be 1 0 ++ be 2 4 ++ be 4 t
  | .options a b c d e f g h =>
    be 1 1 ++ be 2 12 ++ be 1 a ++ be 1 b ++ be 1 c ++ be 1 d ++ be 2 e ++ be 2 f ++ be 2 g ++ be 2 h
  | .routerInfo ff info => be 1 2 ++ be 2 (info.length + 1) ++ be 1 (if ff then 1 else 0) ++ info
  | .i2np m => be 1 3 ++ m.serializeShort
  | .termination v r => be 1 4 ++ be 2 9 ++ be 8 v ++ be 1 r
  | .padding p => be 1 254 ++ be 2 p.length ++ p

/-- Values fit their fields; an I2NP message is non-empty and expires at a whole second. -/
def Block.Ok : Block → Prop
  | .dateTime t => t < 2 ^ 32
  | .options a b c d e f g h => (a < 2 ^ 8 ∧ b < 2 ^ 8 ∧ c < 2 ^ 8 ∧ d < 2 ^ 8) ∧
      e < 2 ^ 16 ∧ f < 2 ^ 16 ∧ g < 2 ^ 16 ∧ h < 2 ^ 16
  | .routerInfo _ info => info.length < 65535
  | .i2np m => m.id < 2 ^ 32 ∧ (∃ secs, secs < 2 ^ 32 ∧ m.expiration = secs * 1000000000) ∧ m.payload ≠ [] ∧
      m.payload.length ≤ 65526
  | .termination v r => v < 2 ^ 64 ∧ r < 2 ^ 8
  | .padding p => p.length < 65536

theorem parseBlock_wire (b : Block) (h : b.Ok) (r : Bytes) : parseBlock (b.wire ++ r) = some (b, r) := by
  cases b with
  | dateTime t =>
    have e : t % 256 ^ 4 = t := Nat.mod_eq_of_lt (by simpa [Block.Ok] using h)
    simp only [Block.wire, parseBlock, parseDateTime, List.append_assoc, beU_be, bind_some_pair, e]
    rfl
  | options a b c d e f g k =>
    obtain ⟨⟨h1, h2, h3, h4⟩, h5, h6, h7, h8⟩ := h
    have e1 : a % 256 ^ 1 = a := Nat.mod_eq_of_lt (by omega)
    have e2 : b % 256 ^ 1 = b := Nat.mod_eq_of_lt (by omega)
    have e3 : c % 256 ^ 1 = c := Nat.mod_eq_of_lt (by omega)
    have e4 : d % 256 ^ 1 = d := Nat.mod_eq_of_lt (by omega)
    have e5 : e % 256 ^ 2 = e := Nat.mod_eq_of_lt (by omega)
    have e6 : f % 256 ^ 2 = f := Nat.mod_eq_of_lt (by omega)
    have e7 : g % 256 ^ 2 = g := Nat.mod_eq_of_lt (by omega)
    have e8 : k % 256 ^ 2 = k := Nat.mod_eq_of_lt (by omega)
    simp only [Block.wire, parseBlock, parseOptions, List.append_assoc, beU_be, bind_some_pair, e1, e2, e3, e4, e5, e6, e7, e8]
    simp [skipExtra]
  | routerInfo ff info =>
    have hl : info.length < 65535 := h
    have e1 : (info.length + 1) % 256 ^ 2 = info.length + 1 := Nat.mod_eq_of_lt (by omega)
    have e2 : ¬ (info.length + 1 = 0) := by omega
    simp only [Block.wire, parseBlock, parseRouterInfo, List.append_assoc, beU_be, bind_some_pair, e1, e2, if_false,
      Nat.add_sub_cancel, takeN_append (Eq.refl info.length)]
    cases ff <;> rfl
  | i2np m =>
    obtain ⟨h1, ⟨secs, hs, hexp⟩, h3, h4⟩ := h
    have := C16_short_header_roundtrip m r h1 (by rw [hexp, Nat.mul_div_cancel _ (by decide)]; exact hs) h3 h4
    simp only [Block.wire, parseBlock, parseI2np, List.append_assoc, beU_be, bind_some_pair, this]
    obtain ⟨ty, id, exp, pl⟩ := m
    simp only at hexp
    subst hexp
    simp
  | termination v k =>
    obtain ⟨h1, h2⟩ := h
    have e1 : v % 256 ^ 8 = v := Nat.mod_eq_of_lt (by omega)
    have e2 : k % 256 ^ 1 = k := Nat.mod_eq_of_lt (by omega)
    simp only [Block.wire, parseBlock, parseTermination, List.append_assoc, beU_be, bind_some_pair, e1, e2]
    simp [skipExtra]
  | padding p =>
    have hl : p.length < 65536 := h
    have e1 : p.length % 256 ^ 2 = p.length := Nat.mod_eq_of_lt (by omega)
    simp only [Block.wire, parseBlock, parsePadding, List.append_assoc, beU_be, bind_some_pair, e1,
      takeN_append (Eq.refl p.length)]
    rfl

theorem Block.wire_pos (b : Block) : 0 < b.wire.length := by
  cases b <;> simp only [Block.wire, List.length_append, be_length] <;> omega

/-- C30: the plaintext of a frame made of any blocks parses to those blocks in order. -/
theorem C30_blocks_roundtrip (bs : List Block) (hne : bs ≠ []) (h : ∀ b ∈ bs, b.Ok) :
    parseBlocks (bs.map Block.wire).flatten = some bs := by
  suffices hf : ∀ fuel, (bs.map Block.wire).flatten.length < fuel →
      parseInner fuel (bs.map Block.wire).flatten = some bs from hf _ (Nat.lt_succ_self _)
  induction bs with
  | nil => exact absurd rfl hne
  | cons b bs ih =>
    intro fuel hfuel
    cases fuel with
    | zero => omega
    | succ fuel =>
      simp only [List.map_cons, List.flatten_cons] at hfuel ⊢
      simp only [parseInner, parseBlock_wire b (h b (by simp)), bind_some_pair]
      cases bs with
      | nil => simp
      | cons c bs =>
        have hp := c.wire_pos
        have hb := b.wire_pos
        have hne' : ((List.map Block.wire (c :: bs)).flatten).isEmpty = false := by
          simp only [List.map_cons, List.flatten_cons]
          cases hc : c.wire with
          | nil => rw [hc] at hp; simp at hp
          | cons x xs => rfl
        rw [hne']
        simp only [Bool.false_eq_true, if_false]
        rw [ih (by simp) (fun x hx => h x (by simp [hx])) fuel (by simp only [List.length_append] at hfuel; omega)]
        rfl

theorem skipExtra_suffix {a b : Nat} {i r : Bytes} {u : Unit} (h : skipExtra a b i = some (u, r)) : r <:+ i := by
  simp only [skipExtra] at h
  split at h
  · cases ht : takeN (a - b) i with
    | none => simp [ht] at h
    | some p =>
      obtain ⟨l, r'⟩ := p
      simp only [ht, Option.map_some, Option.some.injEq, Prod.mk.injEq] at h
      obtain ⟨_, rfl⟩ := h
      exact takeN_suffix ht
  · simp only [Option.some.injEq, Prod.mk.injEq] at h
    exact h.2 ▸ List.suffix_refl _

/-- Every block parser consumes at least one byte and leaves a suffix. -/
theorem parseBlock_suffix {i r : Bytes} {b : Block} (h : parseBlock i = some (b, r)) :
    ∃ c, c ≠ [] ∧ i = c ++ r := by
  simp only [parseBlock] at h
  unbind h with ⟨ty, r1⟩ e1
  obtain ⟨rfl, hb⟩ := beU_some e1
  have key : ∃ c, r1 = c ++ r := by
    split at h
    · simp only [parseDateTime] at h
      unbind h with ⟨a, r2⟩ e2
      unbind h with ⟨b, r3⟩ e3
      simp only [Option.pure_def, Option.some.injEq, Prod.mk.injEq] at h
      obtain ⟨_, rfl⟩ := h
      obtain ⟨c2, rfl⟩ := beU_suffix e2
      obtain ⟨c3, rfl⟩ := beU_suffix e3
      exact ⟨c2 ++ c3, by simp⟩
    · split at h
      · simp only [parseOptions] at h
        unbind h with ⟨_, r2⟩ e2
        unbind h with ⟨_, r3⟩ e3
        unbind h with ⟨_, r4⟩ e4
        unbind h with ⟨_, r5⟩ e5
        unbind h with ⟨_, r6⟩ e6
        unbind h with ⟨_, r7⟩ e7
        unbind h with ⟨_, r8⟩ e8
        unbind h with ⟨_, r9⟩ e9
        unbind h with ⟨_, r10⟩ e10
        unbind h with ⟨_, r11⟩ e11
        simp only [Option.pure_def, Option.some.injEq, Prod.mk.injEq] at h
        obtain ⟨_, rfl⟩ := h
        obtain ⟨c2, rfl⟩ := beU_suffix e2
        obtain ⟨c3, rfl⟩ := beU_suffix e3
        obtain ⟨c4, rfl⟩ := beU_suffix e4
        obtain ⟨c5, rfl⟩ := beU_suffix e5
        obtain ⟨c6, rfl⟩ := beU_suffix e6
        obtain ⟨c7, rfl⟩ := beU_suffix e7
        obtain ⟨c8, rfl⟩ := beU_suffix e8
        obtain ⟨c9, rfl⟩ := beU_suffix e9
        obtain ⟨c10, rfl⟩ := beU_suffix e10
        obtain ⟨c11, rfl⟩ := skipExtra_suffix e11
        exact ⟨c2 ++ c3 ++ c4 ++ c5 ++ c6 ++ c7 ++ c8 ++ c9 ++ c10 ++ c11, by simp⟩
      · split at h
        · simp only [parseRouterInfo] at h
          unbind h with ⟨_, r2⟩ e2
          split at h
          · simp at h
          unbind h with ⟨_, r3⟩ e3
          unbind h with ⟨_, r4⟩ e4
          simp only [Option.pure_def, Option.some.injEq, Prod.mk.injEq] at h
          obtain ⟨_, rfl⟩ := h
          obtain ⟨c2, rfl⟩ := beU_suffix e2
          obtain ⟨c3, rfl⟩ := beU_suffix e3
          obtain ⟨c4, rfl⟩ := takeN_suffix e4
          exact ⟨c2 ++ c3 ++ c4, by simp⟩
        · split at h
          · simp only [parseI2np] at h
            unbind h with ⟨m, r2⟩ e2
            simp only [Option.pure_def, Option.some.injEq, Prod.mk.injEq] at h
            obtain ⟨_, rfl⟩ := h
            exact ⟨m.serializeShort, (C16_short_header_parse_exact e2).1⟩
          · split at h
            · simp only [parseTermination] at h
              unbind h with ⟨_, r2⟩ e2
              unbind h with ⟨_, r3⟩ e3
              unbind h with ⟨_, r4⟩ e4
              unbind h with ⟨_, r5⟩ e5
              simp only [Option.pure_def, Option.some.injEq, Prod.mk.injEq] at h
              obtain ⟨_, rfl⟩ := h
              obtain ⟨c2, rfl⟩ := beU_suffix e2
              obtain ⟨c3, rfl⟩ := beU_suffix e3
              obtain ⟨c4, rfl⟩ := beU_suffix e4
              obtain ⟨c5, rfl⟩ := skipExtra_suffix e5
              exact ⟨c2 ++ c3 ++ c4 ++ c5, by simp⟩
            · split at h
              · simp only [parsePadding] at h
                unbind h with ⟨_, r2⟩ e2
                unbind h with ⟨_, r3⟩ e3
                simp only [Option.pure_def, Option.some.injEq, Prod.mk.injEq] at h
                obtain ⟨_, rfl⟩ := h
                obtain ⟨c2, rfl⟩ := beU_suffix e2
                obtain ⟨c3, rfl⟩ := takeN_suffix e3
                exact ⟨c2 ++ c3, by simp⟩
              · simp at h
  obtain ⟨c, rfl⟩ := key
  exact ⟨be 1 ty ++ c, by simp [be], by simp⟩

/-- `i` is cut without gaps and without remainder into non-empty pieces, each of which the block parser reads as the
corresponding block. -/
inductive Tiled : Bytes → List Block → Prop
  | nil : Tiled [] []
  | cons {c r b bs} : c ≠ [] → parseBlock (c ++ r) = some (b, r) → Tiled r bs → Tiled (c ++ r) (b :: bs)

/-- C30: whatever a parse accepts, it has consumed completely, block after block, and it found at least one. -/
theorem C30_whole_frame_consumed (i : Bytes) (bs : List Block) (h : parseBlocks i = some bs) : Tiled i bs ∧ bs ≠ [] := by
  suffices hf : ∀ fuel i bs, parseInner fuel i = some bs → Tiled i bs ∧ bs ≠ [] from hf _ _ _ h
  intro fuel
  induction fuel with
  | zero => intro i bs h; simp [parseInner] at h
  | succ fuel ih =>
    intro i bs h
    simp only [parseInner] at h
    unbind h with ⟨b, r⟩ e
    obtain ⟨c, hc, rfl⟩ := parseBlock_suffix e
    split at h
    · rename_i hr
      simp only [Option.some.injEq] at h
      subst h
      have : r = [] := List.isEmpty_iff.mp hr
      subst this
      exact ⟨.cons hc e .nil, by simp⟩
    · unbind h with bs' e'
      simp only [Option.pure_def, Option.some.injEq] at h
      subst h
      exact ⟨.cons hc e (ih _ _ e').1, by simp⟩

/-- C30: the fuel of the model is enough: parsing fails only if some block does not parse. -/
theorem C30_complete (i : Bytes) (bs : List Block) (h : Tiled i bs) (hne : bs ≠ []) : parseBlocks i = some bs := by
  suffices hf : ∀ fuel, i.length < fuel → parseInner fuel i = some bs from hf _ (Nat.lt_succ_self _)
  induction h with
  | nil => exact absurd rfl hne
  | @cons c r b bs hc e ht ih =>
    intro fuel hfuel
    have hcl : 0 < c.length := List.length_pos_iff.mpr hc
    cases fuel with
    | zero => omega
    | succ fuel =>
      simp only [parseInner, e, bind_some_pair]
      cases ht with
      | nil => simp
      | @cons c' r' b' bs' hc' e' ht' =>
        have : (c' ++ r').isEmpty = false := by
          cases c' with
          | nil => exact absurd rfl hc'
          | cons => rfl
        rw [this]
        simp only [Bool.false_eq_true, if_false]
        rw [ih (by simp) fuel (by simp only [List.length_append] at hfuel ⊢; omega)]
        rfl

/-- What the router itself puts into frames is the wire form. -/
theorem C30_emitted_blocks (info : Bytes) (hi : info.length < 65535) (m : Message) :
    newRouterInfo info = (Block.routerInfo false info).wire ∧ newI2np m.serializeShort = (Block.i2np m).wire := by
  refine ⟨?_, rfl⟩
  simp only [newRouterInfo, Block.wire, Nat.mod_eq_of_lt (show info.length < 65536 by omega)]
  rfl

example : parseBlocks (([.dateTime 7, .i2np ⟨.data, 9, 5000000000, [1, 2, 3]⟩, .padding [0, 0], .termination 5 1] :
    List Block).map Block.wire).flatten =
    some [.dateTime 7, .i2np ⟨.data, 9, 5000000000, [1, 2, 3]⟩, .padding [0, 0], .termination 5 1] := by decide +kernel

/-! ## C33 -/

/-- Two ends of a session and the obfuscated lengths in flight in each direction (TCP keeps order). -/
structure Link where
  a : Sip
  b : Sip
  ab : List Nat := []
  ba : List Nat := []
  sentA : List Nat := []
  sentB : List Nat := []
  gotA : List Nat := []
  gotB : List Nat := []

/-- What can happen: either end sends a frame of some length, or reads the next length. -/
inductive LinkOp where
  | sendA (n : Nat) | sendB (n : Nat) | recvA | recvB

def Link.step (H : Hashes) (l : Link) : LinkOp → Link
  | .sendA n => { l with a := (l.a.obfuscate H n).2, ab := l.ab ++ [(l.a.obfuscate H n).1], sentA := l.sentA ++ [n] }
  | .sendB n => { l with b := (l.b.obfuscate H n).2, ba := l.ba ++ [(l.b.obfuscate H n).1], sentB := l.sentB ++ [n] }
  | .recvA => match l.ba with
    | [] => l
    | x :: xs => { l with a := (l.a.deobfuscate H x).2, ba := xs, gotA := l.gotA ++ [(l.a.deobfuscate H x).1] }
  | .recvB => match l.ab with
    | [] => l
    | x :: xs => { l with b := (l.b.deobfuscate H x).2, ab := xs, gotB := l.gotB ++ [(l.b.deobfuscate H x).1] }

/-- Masking a list of lengths. -/
def maskAll (H : Hashes) : SipKey → List Nat → List Nat × SipKey
  | k, [] => ([], k)
  | k, n :: ns => let r := maskAll H (k.next H).2 ns; ((n ^^^ (k.next H).1) :: r.1, r.2)

theorem maskAll_append (H : Hashes) (xs ys : List Nat) : ∀ k, maskAll H k (xs ++ ys) =
    ((maskAll H k xs).1 ++ (maskAll H (maskAll H k xs).2 ys).1, (maskAll H (maskAll H k xs).2 ys).2) := by
  induction xs with
  | nil => intro k; rfl
  | cons x xs ih => intro k; simp only [List.cons_append, maskAll, ih]

/-- The reader is behind the writer by exactly the lengths in flight. -/
def InSync (H : Hashes) (tx rx : SipKey) (flight sent got : List Nat) : Prop :=
  ∃ pending, sent = got ++ pending ∧ maskAll H rx pending = (flight, tx)

theorem InSync.send {H : Hashes} {tx rx : SipKey} {flight sent got : List Nat} (h : InSync H tx rx flight sent got) (n : Nat) :
    InSync H (tx.next H).2 rx (flight ++ [n ^^^ (tx.next H).1]) (sent ++ [n]) got := by
  obtain ⟨p, h1, h2⟩ := h
  refine ⟨p ++ [n], by rw [h1, List.append_assoc], ?_⟩
  rw [maskAll_append, h2]
  rfl

theorem xor_cancel (a b : Nat) : a ^^^ b ^^^ b = a := by
  rw [Nat.xor_assoc, Nat.xor_self, Nat.xor_zero]

theorem InSync.recv {H : Hashes} {tx rx : SipKey} {x : Nat} {flight sent got : List Nat}
    (h : InSync H tx rx (x :: flight) sent got) :
    InSync H tx (rx.next H).2 flight sent (got ++ [x ^^^ (rx.next H).1]) := by
  obtain ⟨p, h1, h2⟩ := h
  cases p with
  | nil => simp [maskAll] at h2
  | cons n p =>
    simp only [maskAll, Prod.mk.injEq, List.cons.injEq] at h2
    obtain ⟨⟨hx, hf⟩, ht⟩ := h2
    refine ⟨p, ?_, ?_⟩
    · rw [← hx, xor_cancel, h1]; simp
    · rw [← hf, ← ht]

/-- C33: both ends derive their obfuscation state from the same handshake; whatever lengths either end sends and in
whatever order frames are sent and read in the two directions, the lengths read are exactly the lengths sent, in order:
what one end has read is a prefix of what the other has sent, and all of it once nothing is in flight. -/
theorem C33_lengths_stay_synchronised (H : Hashes) (key h : Bytes) (ops : List LinkOp) :
    let l := ops.foldl (Link.step H) { a := Sip.initiator H key h, b := Sip.responder H key h }
    l.gotB <+: l.sentA ∧ l.gotA <+: l.sentB ∧ (l.ab = [] → l.gotB = l.sentA) ∧ (l.ba = [] → l.gotA = l.sentB) := by
  intro l
  have inv : InSync H l.a.sender l.b.receiver l.ab l.sentA l.gotB ∧ InSync H l.b.sender l.a.receiver l.ba l.sentB l.gotA := by
    suffices hs : ∀ (ops : List LinkOp) (l : Link),
        InSync H l.a.sender l.b.receiver l.ab l.sentA l.gotB → InSync H l.b.sender l.a.receiver l.ba l.sentB l.gotA →
        InSync H (ops.foldl (Link.step H) l).a.sender (ops.foldl (Link.step H) l).b.receiver (ops.foldl (Link.step H) l).ab
          (ops.foldl (Link.step H) l).sentA (ops.foldl (Link.step H) l).gotB ∧
        InSync H (ops.foldl (Link.step H) l).b.sender (ops.foldl (Link.step H) l).a.receiver (ops.foldl (Link.step H) l).ba
          (ops.foldl (Link.step H) l).sentB (ops.foldl (Link.step H) l).gotA from
      hs ops _ ⟨[], rfl, rfl⟩ ⟨[], rfl, rfl⟩
    intro ops
    induction ops with
    | nil => intro l h1 h2; exact ⟨h1, h2⟩
    | cons op ops ih =>
      intro l h1 h2
      rw [List.foldl_cons]
      apply ih
      · cases op with
        | sendA n => exact h1.send n
        | sendB n => exact h1
        | recvA =>
          simp only [Link.step]
          split
          · exact h1
          · exact h1
        | recvB =>
          simp only [Link.step]
          split
          · exact h1
          · rename_i x xs hx
            rw [hx] at h1
            exact h1.recv
      · cases op with
        | sendA n => exact h2
        | sendB n => exact h2.send n
        | recvA =>
          simp only [Link.step]
          split
          · exact h2
          · rename_i x xs hx
            rw [hx] at h2
            exact h2.recv
        | recvB =>
          simp only [Link.step]
          split
          · exact h2
          · exact h2
  obtain ⟨⟨p, h1, h2⟩, ⟨q, h3, h4⟩⟩ := inv
  refine ⟨⟨p, h1.symm⟩, ⟨q, h3.symm⟩, ?_, ?_⟩
  · intro he
    rw [he] at h2
    cases p with
    | nil => simpa using h1.symm
    | cons => simp [maskAll] at h2
  · intro he
    rw [he] at h4
    cases q with
    | nil => simpa using h3.symm
    | cons => simp [maskAll] at h4

/-- Non-vacuity: with a toy hash, lengths in flight really are masked, and three lengths are read back. -/
def toyH : Hashes := ⟨fun a b iv => (a + b + unbe iv) * 77777 + 12345, fun k d => List.replicate 32 (UInt8.ofNat (unbe (k ++ d)))⟩

example :
    let l := [LinkOp.sendA 40, .sendB 9, .sendA 65535, .recvB].foldl (Link.step toyH)
      { a := Sip.initiator toyH [1] [2], b := Sip.responder toyH [1] [2] }
    l.ab ≠ [65535] ∧ l.ab.length = 1 ∧ l.gotB = [40] := by decide +kernel

/-! ## C34 -/

/-- An operation on a cipher state: any of the encryption and decryption entry points. -/
inductive CipherOp where
  | encrypt (ad plain : Bytes) | decrypt (ad ct : Bytes)

/-- An AEAD that reveals the nonce it was called with, to observe what the cipher state passes to the primitive. -/
def spy : Aead := ⟨fun _ n _ _ => n, fun _ n _ _ => some n⟩

/-- State after an operation and the nonce the primitive was called with, if it was called. -/
def Cipher.op (c : Cipher) : CipherOp → Option Bytes × Cipher
  | .encrypt ad p => c.encrypt spy ad p
  | .decrypt ad ct => c.decrypt spy ad ct

/-- The nonces used by a sequence of operations. -/
def Cipher.ops (c : Cipher) : List CipherOp → List (Option Bytes)
  | [] => []
  | o :: os => (c.op o).1 :: (c.op o).2.ops os

/-- The state does not depend on the primitive, so what `spy` sees is what any primitive gets. -/
theorem op_state (A : Aead) (c : Cipher) (x y : Bytes) :
    (c.encrypt A x y).2 = (c.op (.encrypt x y)).2 ∧ (c.decrypt A x y).2 = (c.op (.decrypt x y)).2 := by
  simp only [Cipher.op, Cipher.encrypt, Cipher.decrypt]
  constructor <;> split <;> rfl

theorem op_spec (c : Cipher) (o : CipherOp) : c.op o =
    if c.nonce + 1 < 2 ^ 64 then (some (nonceBytes c.nonce), { c with nonce := c.nonce + 1 }) else (none, c) := by
  obtain ⟨k, n⟩ := c
  by_cases h : n + 1 < 2 ^ 64 <;> cases o <;> simp only [Cipher.op, Cipher.encrypt, Cipher.decrypt, nonceNext, h, if_true, if_false] <;> rfl

theorem le_inj {k m n : Nat} (hm : m < 256 ^ k) (hn : n < 256 ^ k) (h : le k m = le k n) : m = n := by
  have : be k m = be k n := List.reverse_inj.mp h
  have := congrArg unbe this
  rwa [unbe_be, unbe_be, Nat.mod_eq_of_lt hm, Nat.mod_eq_of_lt hn] at this

theorem ops_get (os : List CipherOp) : ∀ (c : Cipher) (i : Nat), c.nonce < 2 ^ 64 → i < os.length →
    (c.ops os)[i]? = some (if c.nonce + i + 1 < 2 ^ 64 then some (nonceBytes (c.nonce + i)) else none) := by
  induction os with
  | nil => intro c i _ h; simp at h
  | cons o os ih =>
    intro c i hc hi
    cases i with
    | zero =>
      simp only [Cipher.ops, List.getElem?_cons_zero, Nat.add_zero, op_spec]
      split <;> rfl
    | succ i =>
      simp only [Cipher.ops, List.getElem?_cons_succ, op_spec]
      have hi : i < os.length := by simpa using hi
      by_cases hx : c.nonce + 1 < 2 ^ 64
      · simp only [hx, if_true]
        rw [ih { c with nonce := c.nonce + 1 } i hx hi]
        have e : c.nonce + 1 + i = c.nonce + (i + 1) := by omega
        simp only [e]
      · simp only [hx, if_false]
        rw [ih c i hc hi]
        have h1 : ¬ c.nonce + i + 1 < 2 ^ 64 := by omega
        have h2 : ¬ c.nonce + (i + 1) + 1 < 2 ^ 64 := by omega
        rw [if_neg h1, if_neg h2]

theorem ops_length (os : List CipherOp) : ∀ c : Cipher, (c.ops os).length = os.length := by
  induction os with
  | nil => intro c; rfl
  | cons o os ih => intro c; simp [Cipher.ops, ih]

/-- C34: over the whole life of a cipher state, whatever operations are performed on it and whether or not they succeed, no
two calls of the primitive under its key use the same nonce. -/
theorem C34_nonces_never_repeat (key : Bytes) (start : Nat) (hs : start < 2 ^ 64) (os : List CipherOp) (i j : Nat) (x : Bytes)
    (hi : (Cipher.ops ⟨key, start⟩ os)[i]? = some (some x)) (hj : (Cipher.ops ⟨key, start⟩ os)[j]? = some (some x)) : i = j := by
  have hil : i < os.length := by
    rw [← ops_length os ⟨key, start⟩]
    rcases Nat.lt_or_ge i (Cipher.ops ⟨key, start⟩ os).length with h | h
    · exact h
    · rw [List.getElem?_eq_none h] at hi; simp at hi
  have hjl : j < os.length := by
    rw [← ops_length os ⟨key, start⟩]
    rcases Nat.lt_or_ge j (Cipher.ops ⟨key, start⟩ os).length with h | h
    · exact h
    · rw [List.getElem?_eq_none h] at hj; simp at hj
  rw [ops_get os _ i hs hil] at hi
  rw [ops_get os _ j hs hjl] at hj
  simp only [Option.some.injEq] at hi hj
  split at hi
  · split at hj
    · simp only [Option.some.injEq] at hi hj
      have h := hi.trans hj.symm
      simp only [nonceBytes] at h
      have := le_inj (k := 8) (by omega) (by omega) (List.append_cancel_left h)
      omega
    · simp at hj
  · simp at hi

/-- C34: with `A` any primitive, encryption and decryption return an error, without output, once the nonces are used
up, and the state stays exhausted. -/
theorem C34_exhaustion_is_an_error (A : Aead) (c : Cipher) (h : c.nonce = 2 ^ 64 - 1) (ad plain ct : Bytes) :
    c.encrypt A ad plain = (none, c) ∧ c.decrypt A ad ct = (none, c) := by
  obtain ⟨k, n⟩ := c
  simp only at h
  subst h
  simp [Cipher.encrypt, Cipher.decrypt, nonceNext]

example : (Cipher.ops ⟨[1], 2 ^ 64 - 3⟩ [.encrypt [] [], .decrypt [] [], .encrypt [] [], .encrypt [] []]) =
    [some (nonceBytes (2 ^ 64 - 3)), some (nonceBytes (2 ^ 64 - 2)), none, none] := by decide +kernel

end Emissary.Ntcp2
