import Verif.Model.Ssu2Block
import Verif.Props.I2np
/-!
# C38: SSU2 blocks
-/
namespace Emissary.Ssu2
open Emissary Emissary.I2np

theorem of_bind {α β : Type} (a : α) (f : α → Res β) : (Res.of (some a) >>= f) = f a := rfl
theorem ok_bind {α β : Type} (a : α) (f : α → Res β) : (Res.ok a >>= f) = f a := rfl

/-! ## Specification: the wire form of a block -/

/-- Type, 16-bit size, contents (SSU2 specification). -/
def Block.wire : Block → Bytes
  | .dateTime t => be 1 0 ++ be 2 4 ++ be 4 t
  | .options a b c d e f g h =>
    be 1 1 ++ be 2 12 ++ be 1 a ++ be 1 b ++ be 1 c ++ be 1 d ++ be 2 e ++ be 2 f ++ be 2 g ++ be 2 h
  | .routerInfo info => be 1 2 ++ be 2 (2 + info.length) ++ be 1 0 ++ be 1 1 ++ info
  | .i2np m => be 1 3 ++ m.serializeShort
  | .first ty mid exp p => be 1 4 ++ be 2 (9 + p.length) ++ be 1 ty.code ++ be 4 mid ++ be 4 exp ++ p
  | .followOn last mid num p => be 1 5 ++ be 2 (5 + p.length) ++ be 1 (2 * num + (if last then 1 else 0)) ++ be 4 mid ++ p
  | .termination v r => be 1 6 ++ be 2 9 ++ be 8 v ++ be 1 r
  | .ack t n rs => be 1 12 ++ be 2 (5 + 2 * rs.length) ++ be 4 t ++ be 1 n ++ rangeBytes rs
  | .address (.v4 ip port) => be 1 13 ++ be 2 6 ++ be 2 port ++ ip
  | .address (.v6 ip port) => be 1 13 ++ be 2 18 ++ be 2 port ++ ip
  | .newToken e t => be 1 17 ++ be 2 12 ++ be 4 e ++ be 8 t
  | .pathChallenge d => be 1 18 ++ be 2 d.length ++ d
  | .pathResponse d => be 1 19 ++ be 2 d.length ++ d
  | .firstPacketNumber n => be 1 20 ++ be 2 4 ++ be 4 n
  | .congestion f => be 1 21 ++ be 2 1 ++ be 1 f
  | .padding p => be 1 254 ++ be 2 p.length ++ p
  | .unsupported => be 1 7 ++ be 2 0

/-- Values fit their fields. -/
def Block.Ok (valid : Bytes → Bool) : Block → Prop
  | .dateTime t => t < 2 ^ 32
  | .options a b c d e f g h => (a < 2 ^ 8 ∧ b < 2 ^ 8 ∧ c < 2 ^ 8 ∧ d < 2 ^ 8) ∧
      e < 2 ^ 16 ∧ f < 2 ^ 16 ∧ g < 2 ^ 16 ∧ h < 2 ^ 16
  | .routerInfo info => info.length < 65534 ∧ valid info = true
  | .i2np m => m.id < 2 ^ 32 ∧ (∃ secs, secs < 2 ^ 32 ∧ m.expiration = secs * 1000000000) ∧ m.payload ≠ [] ∧
      m.payload.length ≤ 65526
  | .first _ mid exp p => mid < 2 ^ 32 ∧ exp < 2 ^ 32 ∧ p ≠ [] ∧ p.length ≤ 65526
  | .followOn _ mid num p => mid < 2 ^ 32 ∧ num < 128 ∧ p ≠ [] ∧ p.length ≤ 65530
  | .termination v r => v < 2 ^ 64 ∧ r < 2 ^ 8
  | .ack t n rs => t < 2 ^ 32 ∧ n < 2 ^ 8 ∧ rs.length ≤ 32765 ∧ ∀ p ∈ rs, p.1 < 2 ^ 8 ∧ p.2 < 2 ^ 8
  | .address (.v4 ip _) => ip.length = 4
  | .address (.v6 ip _) => ip.length = 16
  | .newToken e t => e < 2 ^ 32 ∧ t < 2 ^ 64
  | .pathChallenge d => d.length < 65536
  | .pathResponse d => d.length < 65536
  | .firstPacketNumber n => n < 2 ^ 32
  | .congestion f => f < 2 ^ 8
  | .padding p => p.length < 65536
  | .unsupported => True

/-- What the receiver sees: an address block is skipped. -/
def Block.seen : Block → Block
  | .address _ => .unsupported
  | b => b

theorem ofCode_code (ty : MessageType) : MessageType.ofCode ty.code = some ty ∧ ty.code < 256 := by
  cases ty <;> exact ⟨rfl, by decide⟩

theorem rangeBytes_length (rs : List (Nat × Nat)) : (rangeBytes rs).length = 2 * rs.length := by
  induction rs with
  | nil => rfl
  | cons p rs ih =>
    have : rangeBytes (p :: rs) = (be 1 p.1 ++ be 1 p.2) ++ rangeBytes rs := by simp [rangeBytes]
    rw [this]; simp only [List.length_append, be_length, ih, List.length_cons]; omega

theorem pairsOf_rangeBytes (rs : List (Nat × Nat)) (h : ∀ p ∈ rs, p.1 < 2 ^ 8 ∧ p.2 < 2 ^ 8) :
    pairsOf (rangeBytes rs) = rs := by
  induction rs with
  | nil => rfl
  | cons p rs ih =>
    have e : rangeBytes (p :: rs) = (be 1 p.1 ++ be 1 p.2) ++ rangeBytes rs := by simp [rangeBytes]
    have hp := h p (by simp)
    rw [e]
    simp only [be, Nat.pow_zero, Nat.div_one, List.cons_append, List.nil_append, pairsOf, UInt8.toNat_ofNat']
    rw [ih (fun q hq => h q (by simp [hq])), Nat.mod_eq_of_lt hp.1, Nat.mod_eq_of_lt hp.2]

theorem parseBlock_wire (chk : Bool) (valid : Bytes → Bool) (b : Block) (h : b.Ok valid) (r : Bytes) :
    parseBlock chk valid (b.wire ++ r) = .ok (b.seen, r) := by
  cases b with
  | dateTime t =>
    have e : t % 256 ^ 4 = t := Nat.mod_eq_of_lt (by simpa [Block.Ok] using h)
    simp only [Block.wire, parseBlock, List.append_assoc, beU_be, of_bind, Nat.reducePow, Nat.zero_mod, parseBody, parseDateTime]
    simp only [Nat.reducePow] at e
    rw [e]; rfl
  | options a b c d e f g k =>
    obtain ⟨⟨h1, h2, h3, h4⟩, h5, h6, h7, h8⟩ := h
    have e1 : a % 256 = a := Nat.mod_eq_of_lt (by omega)
    have e2 : b % 256 = b := Nat.mod_eq_of_lt (by omega)
    have e3 : c % 256 = c := Nat.mod_eq_of_lt (by omega)
    have e4 : d % 256 = d := Nat.mod_eq_of_lt (by omega)
    have e5 : e % 65536 = e := Nat.mod_eq_of_lt (by omega)
    have e6 : f % 65536 = f := Nat.mod_eq_of_lt (by omega)
    have e7 : g % 65536 = g := Nat.mod_eq_of_lt (by omega)
    have e8 : k % 65536 = k := Nat.mod_eq_of_lt (by omega)
    simp only [Block.wire, parseBlock, List.append_assoc, beU_be, of_bind, Nat.reducePow, Nat.reduceMod, parseBody, parseOptions,
      e1, e2, e3, e4, e5, e6, e7, e8]
    simp only [skipExtra, Nat.lt_irrefl, gt_iff_lt, if_false]
    rfl
  | routerInfo info =>
    obtain ⟨hl, hv⟩ := h
    have e1 : (2 + info.length) % 65536 = 2 + info.length := Nat.mod_eq_of_lt (by omega)
    have e2 : ¬ (2 + info.length = 0) := by omega
    have e3 : ¬ (2 + info.length < 2) := by omega
    simp only [Block.wire, parseBlock, List.append_assoc, beU_be, of_bind, Nat.reducePow, Nat.reduceMod, parseBody,
      parseRouterInfo, e1, e2, if_false, sub2, e3, ok_bind, Nat.add_sub_cancel_left, takeN_append (Eq.refl info.length), hv]
    rfl
  | i2np m =>
    obtain ⟨h1, ⟨secs, hs, hexp⟩, h3, h4⟩ := h
    have := C16_short_header_roundtrip m r h1 (by rw [hexp, Nat.mul_div_cancel _ (by decide)]; exact hs) h3 h4
    simp only [Block.wire, parseBlock, List.append_assoc, beU_be, of_bind, Nat.reducePow, Nat.reduceMod, parseBody, parseI2np, this]
    obtain ⟨ty, id, exp, pl⟩ := m
    simp only at hexp
    subst hexp
    simp [pure, Block.seen]
  | first ty mid exp p =>
    obtain ⟨h1, h2, h3, h4⟩ := h
    obtain ⟨c1, c2⟩ := ofCode_code ty
    have hp : 0 < p.length := List.length_pos_iff.mpr h3
    have e1 : (9 + p.length) % 65536 = 9 + p.length := Nat.mod_eq_of_lt (by omega)
    have e2 : mid % 4294967296 = mid := Nat.mod_eq_of_lt (by omega)
    have e3 : exp % 4294967296 = exp := Nat.mod_eq_of_lt (by omega)
    have e4 : ty.code % 256 = ty.code := Nat.mod_eq_of_lt c2
    have e5 : ¬ (p.length = 0) := by omega
    simp only [Block.wire, parseBlock, List.append_assoc, beU_be, of_bind, Nat.reducePow, Nat.reduceMod, parseBody,
      parseFirst, e1, e2, e3, e4, c1, Nat.add_sub_cancel_left, e5, if_false, takeN_append (Eq.refl p.length)]
    rfl
  | followOn last mid num p =>
    obtain ⟨h1, h2, h3, h4⟩ := h
    have hp : 0 < p.length := List.length_pos_iff.mpr h3
    have e1 : (5 + p.length) % 65536 = 5 + p.length := Nat.mod_eq_of_lt (by omega)
    have e2 : mid % 4294967296 = mid := Nat.mod_eq_of_lt (by omega)
    have e5 : ¬ (p.length = 0) := by omega
    cases last with
    | true =>
      have e3 : (2 * num + 1) % 256 = 2 * num + 1 := Nat.mod_eq_of_lt (by omega)
      have e4 : (2 * num + 1) % 2 = 1 := by omega
      have e6 : (2 * num + 1) / 2 = num := by omega
      simp only [Block.wire, parseBlock, List.append_assoc, beU_be, of_bind, Nat.reducePow, Nat.reduceMod, parseBody, if_true,
        parseFollowOn, e1, e2, e3, Nat.add_sub_cancel_left, e5, if_false, takeN_append (Eq.refl p.length), e4, e6, decide_true]
      rfl
    | false =>
      have e3 : (2 * num + 0) % 256 = 2 * num := Nat.mod_eq_of_lt (by omega)
      have e4 : ¬ ((2 * num) % 2 = 1) := by omega
      have e6 : (2 * num) / 2 = num := by omega
      simp only [Block.wire, parseBlock, List.append_assoc, beU_be, of_bind, Nat.reducePow, Nat.reduceMod, parseBody,
        Bool.false_eq_true, parseFollowOn, e1, e2, e3, Nat.add_sub_cancel_left, e5, if_false, takeN_append (Eq.refl p.length),
        e4, e6, decide_false]
      rfl
  | termination v k =>
    obtain ⟨h1, h2⟩ := h
    have e1 : v % 18446744073709551616 = v := Nat.mod_eq_of_lt (by omega)
    have e2 : k % 256 = k := Nat.mod_eq_of_lt (by omega)
    simp only [Block.wire, parseBlock, List.append_assoc, beU_be, of_bind, Nat.reducePow, Nat.reduceMod, parseBody,
      parseTermination, e1, e2, skipExtra, gt_iff_lt, Nat.lt_irrefl, if_false]
    rfl
  | ack t n rs =>
    obtain ⟨h1, h2, h3, h4⟩ := h
    have e1 : (5 + 2 * rs.length) % 65536 = 5 + 2 * rs.length := Nat.mod_eq_of_lt (by omega)
    have e2 : t % 4294967296 = t := Nat.mod_eq_of_lt (by omega)
    have e3 : n % 256 = n := Nat.mod_eq_of_lt (by omega)
    have e4 : (2 * rs.length) % 2 = 0 := by omega
    simp only [Block.wire, parseBlock, List.append_assoc, beU_be, of_bind, Nat.reducePow, Nat.reduceMod, parseBody,
      parseAck, e1, e2, e3, Nat.add_sub_cancel_left, e4, if_true]
    by_cases hz : 2 * rs.length = 0
    · have : rs = [] := List.length_eq_zero_iff.mp (by omega)
      subst this
      rfl
    · rw [if_neg hz, takeN_append (rangeBytes_length rs), of_bind]
      simp only [pairsOf_rangeBytes rs h4, Block.seen]
      rfl
  | address a =>
    cases a with
    | v4 ip port =>
      have hl : ip.length = 4 := h
      have hl' : (be 2 port ++ ip).length = 6 := by simp [hl]
      have := takeN_append hl' r
      simp only [List.append_assoc] at this
      simp only [Block.wire, parseBlock, List.append_assoc, beU_be, of_bind, Nat.reducePow, Nat.reduceMod, parseBody,
        parseData, this]
      rfl
    | v6 ip port =>
      have hl : ip.length = 16 := h
      have hl' : (be 2 port ++ ip).length = 18 := by simp [hl]
      have := takeN_append hl' r
      simp only [List.append_assoc] at this
      simp only [Block.wire, parseBlock, List.append_assoc, beU_be, of_bind, Nat.reducePow, Nat.reduceMod, parseBody,
        parseData, this]
      rfl
  | newToken e t =>
    obtain ⟨h1, h2⟩ := h
    have e1 : e % 4294967296 = e := Nat.mod_eq_of_lt (by omega)
    have e2 : t % 18446744073709551616 = t := Nat.mod_eq_of_lt (by omega)
    simp only [Block.wire, parseBlock, List.append_assoc, beU_be, of_bind, Nat.reducePow, Nat.reduceMod, parseBody,
      parseNewToken, e1, e2]
    rfl
  | pathChallenge p =>
    have hl : p.length < 65536 := h
    have e1 : p.length % 65536 = p.length := Nat.mod_eq_of_lt (by omega)
    simp only [Block.wire, parseBlock, List.append_assoc, beU_be, of_bind, Nat.reducePow, Nat.reduceMod, parseBody,
      parseData, e1, takeN_append (Eq.refl p.length)]
    rfl
  | pathResponse p =>
    have hl : p.length < 65536 := h
    have e1 : p.length % 65536 = p.length := Nat.mod_eq_of_lt (by omega)
    simp only [Block.wire, parseBlock, List.append_assoc, beU_be, of_bind, Nat.reducePow, Nat.reduceMod, parseBody,
      parseData, e1, takeN_append (Eq.refl p.length)]
    rfl
  | firstPacketNumber n =>
    have hl : n < 2 ^ 32 := h
    have e1 : n % 4294967296 = n := Nat.mod_eq_of_lt (by omega)
    simp only [Block.wire, parseBlock, List.append_assoc, beU_be, of_bind, Nat.reducePow, Nat.reduceMod, parseBody,
      parseFirstPacketNumber, e1]
    rfl
  | congestion f =>
    have hl : f < 2 ^ 8 := h
    have e1 : f % 256 = f := Nat.mod_eq_of_lt (by omega)
    simp only [Block.wire, parseBlock, List.append_assoc, beU_be, of_bind, Nat.reducePow, Nat.reduceMod, parseBody,
      parseCongestion, e1]
    rfl
  | padding p =>
    have hl : p.length < 65536 := h
    have e1 : p.length % 65536 = p.length := Nat.mod_eq_of_lt (by omega)
    simp only [Block.wire, parseBlock, List.append_assoc, beU_be, of_bind, Nat.reducePow, Nat.reduceMod, parseBody,
      parseData, e1, takeN_append (Eq.refl p.length)]
    rfl
  | unsupported =>
    simp only [Block.wire, parseBlock, List.append_assoc, beU_be, of_bind, Nat.reducePow, Nat.reduceMod, parseBody,
      parseData]
    simp [takeN, of_bind, Block.seen, pure]

theorem Block.wire_pos (b : Block) : 0 < b.wire.length := by
  cases b with
  | address a => cases a <;> simp only [Block.wire, List.length_append, be_length] <;> omega
  | _ => simp only [Block.wire, List.length_append, be_length] <;> omega

/-- C38: a payload made of any blocks is parsed to those blocks in order, in every build. -/
theorem C38_blocks_roundtrip (chk : Bool) (valid : Bytes → Bool) (bs : List Block) (hne : bs ≠ []) (h : ∀ b ∈ bs, b.Ok valid) :
    parseBlocks chk valid (bs.map Block.wire).flatten = .ok (bs.map Block.seen) := by
  suffices hf : ∀ fuel, (bs.map Block.wire).flatten.length < fuel →
      parseMultiple chk valid fuel (bs.map Block.wire).flatten = .ok (bs.map Block.seen) from hf _ (Nat.lt_succ_self _)
  induction bs with
  | nil => exact absurd rfl hne
  | cons b bs ih =>
    intro fuel hfuel
    cases fuel with
    | zero => omega
    | succ fuel =>
      simp only [List.map_cons, List.flatten_cons] at hfuel ⊢
      simp only [parseMultiple, parseBlock_wire chk valid b (h b (by simp)), ok_bind]
      cases bs with
      | nil => simp
      | cons c bs =>
        have hp := c.wire_pos
        have hb := b.wire_pos
        have hne' : ((List.map Block.wire (c :: bs)).flatten).isEmpty = false := by
          simp only [List.map_cons, List.flatten_cons]
          cases hc : c.wire with
          | nil => rw [hc] at hp; simp at hp
          | cons x xs => rfl
        rw [hne']
        simp only [Bool.false_eq_true, if_false]
        rw [ih (by simp) (fun x hx => h x (by simp [hx])) fuel (by simp only [List.length_append] at hfuel; omega)]
        rfl

/-- C38: every block the serializer can write is written in the wire form; it refuses (panics on) the others. -/
theorem C38_serializer (b : Block) :
    b.serialize = match b with
      | .dateTime _ | .address _ | .padding _ | .ack _ _ _ => some b.wire
      | _ => none := by
  cases b with
  | address a => cases a <;> rfl
  | ack t n rs => simp only [Block.serialize, Block.wire, Nat.mul_comm]
  | _ => rfl

/-- C38: a block of a type the parser does not interpret is skipped, whatever it contains; a block of an unknown type makes
the payload malformed. -/
theorem C38_other_types (chk : Bool) (valid : Bytes → Bool) (ty : Nat) (body r : Bytes) (hty : ty < 256)
    (hl : body.length < 65536) :
    (ty ∈ [7, 8, 9, 10, 11, 13, 15, 16] →
      parseBlock chk valid (be 1 ty ++ be 2 body.length ++ body ++ r) = .ok (.unsupported, r)) ∧
    (ty = 14 ∨ (22 ≤ ty ∧ ty ≠ 254) → parseBlock chk valid (be 1 ty ++ r) = .err) := by
  have e0 : ty % 256 = ty := Nat.mod_eq_of_lt hty
  have e1 : body.length % 65536 = body.length := Nat.mod_eq_of_lt hl
  constructor
  · intro h
    simp only [parseBlock, List.append_assoc, beU_be, of_bind, Nat.reducePow, e0]
    have key : parseData (fun _ => Block.unsupported) (be 2 body.length ++ (body ++ r)) = .ok (.unsupported, r) := by
      simp only [parseData, beU_be, of_bind, Nat.reducePow, e1, takeN_append (Eq.refl body.length)]
      rfl
    simp only [List.mem_cons, List.not_mem_nil, or_false] at h
    rcases h with rfl | rfl | rfl | rfl | rfl | rfl | rfl | rfl <;> exact key
  · intro h
    simp only [parseBlock, beU_be, of_bind, Nat.reducePow, e0]
    rcases h with rfl | ⟨h1, h2⟩
    · rfl
    · unfold parseBody
      split <;> first | omega | rfl

/-! ## Locality: a parser looks only at the bytes it consumes -/

/-- `p` decides on a prefix: whatever follows is irrelevant and left untouched. -/
def Local {α : Type} (p : Bytes → Res (α × Bytes)) : Prop :=
  ∀ i a r, p i = .ok (a, r) → ∃ pre, i = pre ++ r ∧ ∀ r', p (pre ++ r') = .ok (a, r')

theorem Local.beU (k : Nat) : Local (fun i => Res.of (beU k i)) := by
  intro i a r h
  cases hb : Emissary.beU k i with
  | none => simp [hb, Res.of] at h
  | some p =>
    simp only [hb, Res.of, Res.ok.injEq] at h
    subst h
    obtain ⟨h1, h2⟩ := beU_some hb
    refine ⟨be k a, h1, fun r' => ?_⟩
    simp only [beU_be_lt h2]; rfl

theorem Local.takeN (k : Nat) : Local (fun i => Res.of (takeN k i)) := by
  intro i a r h
  cases hb : Emissary.takeN k i with
  | none => simp [hb, Res.of] at h
  | some p =>
    simp only [hb, Res.of, Res.ok.injEq] at h
    subst h
    obtain ⟨h1, h2⟩ := takeN_some hb
    refine ⟨a, h1, fun r' => ?_⟩
    simp only [takeN_append h2]; rfl

theorem Local.bind {α β : Type} {p : Bytes → Res (α × Bytes)} {q : α × Bytes → Res (β × Bytes)} (hp : Local p)
    (hq : ∀ a, Local (fun i => q (a, i))) : Local (fun i => p i >>= q) := by
  intro i b r h
  cases hpi : p i with
  | err => simp only [hpi] at h; cases h
  | panic => simp only [hpi] at h; cases h
  | ok x =>
    obtain ⟨a, m⟩ := x
    simp only [hpi, ok_bind] at h
    obtain ⟨u, hu, hu'⟩ := hp i a m hpi
    obtain ⟨v, hv, hv'⟩ := hq a m b r h
    refine ⟨u ++ v, by rw [hu, hv, List.append_assoc], fun r' => ?_⟩
    simp only [List.append_assoc, hu', ok_bind, hv']

theorem Local.pure {α : Type} (a : α) : Local (fun i => (.ok (a, i) : Res (α × Bytes))) := by
  intro i b r h
  simp only [Res.ok.injEq, Prod.mk.injEq] at h
  obtain ⟨rfl, rfl⟩ := h
  exact ⟨[], rfl, fun _ => rfl⟩

theorem Local.ret {α : Type} (a : α) : Local (fun i => (Pure.pure (a, i) : Res (α × Bytes))) := Local.pure a

theorem Local.err {α : Type} : Local (fun _ => (.err : Res (α × Bytes))) := by intro i b r h; cases h
theorem Local.panic {α : Type} : Local (fun _ => (.panic : Res (α × Bytes))) := by intro i b r h; cases h

theorem Local.const {α β : Type} {x : Res α} {q : α → Bytes → Res (β × Bytes)} (hq : ∀ a, Local (q a)) :
    Local (fun i => x >>= fun a => q a i) := by
  intro i b r h
  cases x with
  | err => cases h
  | panic => cases h
  | ok a => exact hq a i b r h

theorem Local.ite {α : Type} (c : Prop) [Decidable c] {p q : Bytes → Res (α × Bytes)} (hp : Local p) (hq : Local q) :
    Local (fun i => if c then p i else q i) := by
  by_cases h : c
  · simp only [h, if_true]; exact hp
  · simp only [h, if_false]; exact hq

theorem Local.parseShort : Local (fun i => Res.of (Message.parseShort i)) := by
  intro i m r h
  cases hb : Message.parseShort i with
  | none => simp [hb, Res.of] at h
  | some p =>
    simp only [hb, Res.of, Res.ok.injEq] at h
    subst h
    simp only [Message.parseShort] at hb
    unbind hb with ⟨size, r1⟩ e1
    unbind hb with ⟨ty, r2⟩ e2
    unbind hb with ⟨id, r3⟩ e3
    unbind hb with ⟨exp, r4⟩ e4
    split at hb
    · cases hb
    rename_i hs
    unbind hb with ⟨pl, r5⟩ e5
    unbind hb with t e6
    simp only [Option.pure_def, Option.some.injEq, Prod.mk.injEq] at hb
    obtain ⟨rfl, rfl⟩ := hb
    obtain ⟨rfl, l1⟩ := beU_some e1
    obtain ⟨rfl, l2⟩ := beU_some e2
    obtain ⟨rfl, l3⟩ := beU_some e3
    obtain ⟨rfl, l4⟩ := beU_some e4
    obtain ⟨rfl, l5⟩ := takeN_some e5
    refine ⟨be 2 size ++ (be 1 ty ++ (be 4 id ++ (be 4 exp ++ pl))), by simp only [List.append_assoc], fun r' => ?_⟩
    simp only [Message.parseShort, List.append_assoc, beU_be_lt l1, beU_be_lt l2, beU_be_lt l3, beU_be_lt l4, bind_some_pair,
      if_neg hs, takeN_append l5, e6, bind_some_val]
    rfl

theorem Local.skipExtra (a b : Nat) : Local (skipExtra a b) := by
  unfold Ssu2.skipExtra
  by_cases h : a > b
  · simp only [h, if_true]
    exact Local.bind (Local.takeN _) (fun _ => Local.pure _)
  · simp only [h, if_false]
    exact Local.pure ()

theorem Local.data (mk : Bytes → Block) : Local (parseData mk) := by
  unfold parseData
  exact Local.bind (Local.beU 2) fun size => Local.bind (Local.takeN size) fun _ => Local.pure _

theorem Local.parseBlock (chk : Bool) (valid : Bytes → Bool) : Local (parseBlock chk valid) := by
  unfold Ssu2.parseBlock
  refine Local.bind (Local.beU 1) fun ty => ?_
  simp only
  unfold parseBody parseDateTime parseOptions parseRouterInfo parseI2np parseFirst parseFollowOn parseTermination parseAck
    parseNewToken parseFirstPacketNumber parseCongestion
  split
  · exact Local.bind (Local.beU 2) fun _ => Local.bind (Local.beU 4) fun _ => Local.pure _
  · exact Local.bind (Local.beU 2) fun size => Local.bind (Local.beU 1) fun _ => Local.bind (Local.beU 1) fun _ =>
      Local.bind (Local.beU 1) fun _ => Local.bind (Local.beU 1) fun _ => Local.bind (Local.beU 2) fun _ =>
      Local.bind (Local.beU 2) fun _ => Local.bind (Local.beU 2) fun _ => Local.bind (Local.beU 2) fun _ =>
      Local.bind (Local.skipExtra size 12) fun _ => Local.pure _
  · exact Local.bind (Local.beU 2) fun size => Local.ite (size = 0) Local.err <|
      Local.bind (Local.beU 1) fun flag => Local.bind (Local.beU 1) fun _ => Local.const fun n =>
      Local.bind (Local.takeN n) fun info => Local.ite (flag / 2 % 2 = 1) Local.err <|
      Local.ite (valid info = true) (Local.pure (Block.routerInfo info)) Local.err
  · exact Local.bind Local.parseShort fun _ => Local.pure _
  · exact Local.bind (Local.beU 2) fun size => Local.bind (Local.beU 1) fun ty => Local.bind (Local.beU 4) fun mid =>
      Local.bind (Local.beU 4) fun exp => Local.const fun t => Local.ite (size - 9 = 0) Local.err <|
      Local.bind (Local.takeN (size - 9)) fun p => Local.ret (Block.first t mid exp p)
  · exact Local.bind (Local.beU 2) fun size => Local.bind (Local.beU 1) fun f => Local.bind (Local.beU 4) fun mid =>
      Local.ite (size - 5 = 0) Local.err <|
      Local.bind (Local.takeN (size - 5)) fun p => Local.ret (Block.followOn (f % 2 = 1) mid (f / 2) p)
  · exact Local.bind (Local.beU 2) fun size => Local.bind (Local.beU 8) fun _ => Local.bind (Local.beU 1) fun _ =>
      Local.bind (Local.skipExtra size 9) fun _ => Local.pure _
  all_goals try exact Local.data _
  · exact Local.bind (Local.beU 2) fun size => Local.bind (Local.beU 4) fun thr => Local.bind (Local.beU 1) fun n =>
      Local.ite (size - 5 = 0) (Local.pure (Block.ack thr n [])) <|
      Local.ite ((size - 5) % 2 = 0) (Local.bind (Local.takeN (size - 5)) fun p => Local.ret (Block.ack thr n (pairsOf p))) <|
      Local.ite (chk = true) Local.panic (Local.pure (Block.ack thr n []))
  · exact Local.bind (Local.beU 2) fun _ => Local.bind (Local.beU 4) fun _ => Local.bind (Local.beU 8) fun _ => Local.pure _
  · exact Local.bind (Local.beU 2) fun _ => Local.bind (Local.beU 4) fun _ => Local.pure _
  · exact Local.bind (Local.beU 2) fun _ => Local.bind (Local.beU 1) fun _ => Local.pure _
  · exact Local.err

theorem parseBlock_shorter {chk : Bool} {valid : Bytes → Bool} {i r : Bytes} {b : Block}
    (h : parseBlock chk valid i = .ok (b, r)) : r.length < i.length := by
  unfold parseBlock at h
  cases hb : Emissary.beU 1 i with
  | none => rw [hb] at h; cases h
  | some x =>
    obtain ⟨pre, h1, h2⟩ := Local.parseBlock chk valid i b r (by unfold parseBlock; exact h)
    rcases pre with _ | ⟨y, pre⟩
    · have hnil := h2 []
      simp [parseBlock, Emissary.beU, Res.of, bind, Res.bind] at hnil
    · rw [h1]; simp only [List.cons_append, List.length_cons, List.length_append]; omega

/-- C38: the payload is accepted exactly when it is a sequence of blocks each of which is accepted on its own; the parser
reads every byte of the payload and nothing beyond it. -/
theorem C38_accepts_exactly_block_sequences (chk : Bool) (valid : Bytes → Bool) (i : Bytes) (bs : List Block) :
    parseBlocks chk valid i = .ok bs ↔
      ∃ parts : List (Bytes × Block), parts ≠ [] ∧ i = (parts.map Prod.fst).flatten ∧ bs = parts.map Prod.snd ∧
        ∀ p ∈ parts, parseBlock chk valid p.1 = .ok (p.2, []) := by
  have hfuel : ∀ fuel i bs, i.length < fuel → (parseMultiple chk valid fuel i = .ok bs ↔
      ∃ parts : List (Bytes × Block), parts ≠ [] ∧ i = (parts.map Prod.fst).flatten ∧ bs = parts.map Prod.snd ∧
        ∀ p ∈ parts, parseBlock chk valid p.1 = .ok (p.2, [])) := by
    intro fuel
    induction fuel with
    | zero => intro i bs h; omega
    | succ fuel ih =>
      intro i bs hlen
      constructor
      · intro h
        simp only [parseMultiple] at h
        cases hb : parseBlock chk valid i with
        | err => rw [hb] at h; cases h
        | panic => rw [hb] at h; cases h
        | ok x =>
          obtain ⟨b, r⟩ := x
          rw [hb, ok_bind] at h
          obtain ⟨pre, h1, h2⟩ := Local.parseBlock chk valid i b r hb
          have hpre := h2 []
          rw [List.append_nil] at hpre
          cases r with
          | nil =>
            simp only [List.isEmpty_nil, if_true, Res.ok.injEq] at h
            refine ⟨[(pre, b)], by simp, by simpa using h1, by simpa using h.symm, ?_⟩
            intro p hp
            simp only [List.mem_singleton] at hp
            subst hp
            exact hpre
          | cons y r =>
            simp only [List.isEmpty_cons, Bool.false_eq_true, if_false] at h
            have hs := parseBlock_shorter hb
            cases hm : parseMultiple chk valid fuel (y :: r) with
            | err => rw [hm] at h; cases h
            | panic => rw [hm] at h; cases h
            | ok cs =>
              rw [hm, ok_bind] at h
              simp only [pure, Res.ok.injEq] at h
              obtain ⟨parts, p1, p2, p3, p4⟩ := (ih (y :: r) cs (by omega)).mp hm
              refine ⟨(pre, b) :: parts, by simp, ?_, ?_, ?_⟩
              · rw [h1, p2]; simp
              · rw [← h, p3]; simp
              · intro p hp
                rcases List.mem_cons.mp hp with rfl | hp
                · exact hpre
                · exact p4 p hp
      · rintro ⟨parts, hne, hi, hbs, hall⟩
        cases parts with
        | nil => exact absurd rfl hne
        | cons p parts =>
          have hp := hall p (by simp)
          obtain ⟨pre, h1, h2⟩ := Local.parseBlock chk valid p.1 p.2 [] hp
          rw [List.append_nil] at h1
          have hps := parseBlock_shorter hp
          subst h1
          simp only [List.map_cons, List.flatten_cons] at hi hbs
          subst hi hbs
          simp only [parseMultiple, h2, ok_bind]
          cases parts with
          | nil => simp
          | cons q parts =>
            have hq := parseBlock_shorter (hall q (by simp))
            have hne' : ((List.map Prod.fst (q :: parts)).flatten).isEmpty = false := by
              simp only [List.map_cons, List.flatten_cons]
              cases hc : q.1 with
              | nil => rw [hc] at hq; simp at hq
              | cons x xs => rfl
            rw [hne']
            simp only [Bool.false_eq_true, if_false]
            simp only [List.length_append, List.length_nil] at hlen hps
            rw [(ih _ _ (by omega)).mpr ⟨q :: parts, by simp, rfl, rfl, fun x hx => hall x (by simp [List.mem_cons.mp hx])⟩]
            rfl
  exact hfuel (i.length + 1) i bs (Nat.lt_succ_self _)

/-! ## Panics -/

theorem of_bind_ne_panic {α β : Type} {x : Option α} {f : α → Res β} (h : ∀ a, f a ≠ .panic) : (Res.of x >>= f) ≠ .panic := by
  cases x with
  | none => intro h'; cases h'
  | some a => exact h a

theorem bind_ne_panic {α β : Type} {x : Res α} {f : α → Res β} (hx : x ≠ .panic) (h : ∀ a, f a ≠ .panic) : (x >>= f) ≠ .panic := by
  cases x with
  | err => intro h'; cases h'
  | panic => exact absurd rfl hx
  | ok a => exact h a

theorem ok_ne_panic {α : Type} (a : α) : (.ok a : Res α) ≠ .panic := by intro h; cases h
theorem err_ne_panic {α : Type} : (.err : Res α) ≠ .panic := by intro h; cases h

theorem skipExtra_ne_panic (a b : Nat) (i : Bytes) : skipExtra a b i ≠ .panic := by
  unfold skipExtra
  split
  · exact of_bind_ne_panic fun _ => ok_ne_panic _
  · exact ok_ne_panic _

theorem data_ne_panic (mk : Bytes → Block) (i : Bytes) : parseData mk i ≠ .panic :=
  of_bind_ne_panic fun _ => of_bind_ne_panic fun _ => ok_ne_panic _

/-- Types other than router info and ACK never panic. -/
theorem parseBody_ne_panic (chk : Bool) (valid : Bytes → Bool) (ty : Nat) (r : Bytes) (h2 : ty ≠ 2) (h12 : ty ≠ 12) :
    parseBody chk valid ty r ≠ .panic := by
  unfold parseBody
  split
  · exact of_bind_ne_panic fun _ => of_bind_ne_panic fun _ => ok_ne_panic _
  · refine of_bind_ne_panic fun _ => of_bind_ne_panic fun _ => of_bind_ne_panic fun _ => of_bind_ne_panic fun _ =>
      of_bind_ne_panic fun _ => of_bind_ne_panic fun _ => of_bind_ne_panic fun _ => of_bind_ne_panic fun _ =>
      of_bind_ne_panic fun _ => bind_ne_panic (skipExtra_ne_panic _ _ _) fun _ => ok_ne_panic _
  · exact absurd rfl h2
  · exact of_bind_ne_panic fun _ => ok_ne_panic _
  · refine of_bind_ne_panic fun _ => of_bind_ne_panic fun _ => of_bind_ne_panic fun _ => of_bind_ne_panic fun _ =>
      of_bind_ne_panic fun _ => ?_
    split
    · exact err_ne_panic
    · exact of_bind_ne_panic fun _ => ok_ne_panic _
  · refine of_bind_ne_panic fun _ => of_bind_ne_panic fun _ => of_bind_ne_panic fun ⟨_, _⟩ => ?_
    dsimp only
    split
    · exact err_ne_panic
    · exact of_bind_ne_panic fun _ => ok_ne_panic _
  · exact of_bind_ne_panic fun _ => of_bind_ne_panic fun _ => of_bind_ne_panic fun _ =>
      bind_ne_panic (skipExtra_ne_panic _ _ _) fun _ => ok_ne_panic _
  all_goals try exact data_ne_panic _ _
  · exact absurd rfl h12
  · exact of_bind_ne_panic fun _ => of_bind_ne_panic fun _ => of_bind_ne_panic fun _ => ok_ne_panic _
  · exact of_bind_ne_panic fun _ => of_bind_ne_panic fun _ => ok_ne_panic _
  · exact of_bind_ne_panic fun _ => of_bind_ne_panic fun _ => ok_ne_panic _
  · exact err_ne_panic

/-- C38: in a build without assertions and overflow checks no payload makes the parser panic. -/
theorem C38_release_never_panics_partial (valid : Bytes → Bool) (i : Bytes) : parseBlocks false valid i ≠ .panic := by
  have hb : ∀ i, parseBlock false valid i ≠ .panic := by
    intro i
    refine of_bind_ne_panic fun ⟨ty, r⟩ => ?_
    dsimp only
    by_cases h2 : ty = 2
    · rw [h2]
      refine of_bind_ne_panic fun ⟨size, r⟩ => ?_
      dsimp only
      split
      · exact err_ne_panic
      · refine of_bind_ne_panic fun _ => of_bind_ne_panic fun _ => bind_ne_panic ?_ fun _ => of_bind_ne_panic fun ⟨_, _⟩ => ?_
        · unfold sub2; split
          · simp
          · exact ok_ne_panic _
        · split
          · exact err_ne_panic
          · split
            · exact ok_ne_panic _
            · exact err_ne_panic
    · by_cases h12 : ty = 12
      · rw [h12]
        refine of_bind_ne_panic fun _ => of_bind_ne_panic fun _ => of_bind_ne_panic fun ⟨_, _⟩ => ?_
        dsimp only
        split
        · exact ok_ne_panic _
        · split
          · exact of_bind_ne_panic fun _ => ok_ne_panic _
          · simp
      · exact parseBody_ne_panic _ _ _ _ h2 h12
  suffices hf : ∀ fuel i, parseMultiple false valid fuel i ≠ .panic from hf _ _
  intro fuel
  induction fuel with
  | zero => intro i h; cases h
  | succ fuel ih =>
    intro i
    refine bind_ne_panic (hb i) fun ⟨_, _⟩ => ?_
    dsimp only
    split
    · exact ok_ne_panic _
    · exact bind_ne_panic (ih _) fun _ => ok_ne_panic _

/-- A router info block whose size field is 1, or an ACK block with an odd number of range bytes. -/
def Crashing (i : Bytes) : Prop :=
  (∃ flag frag r, i = be 1 2 ++ be 2 1 ++ be 1 flag ++ be 1 frag ++ r) ∨
  (∃ size thr n r, 5 < size ∧ size % 2 = 0 ∧ size < 65536 ∧ i = be 1 12 ++ be 2 size ++ be 4 thr ++ be 1 n ++ r)

/-- C38: in a build with checks, exactly two malformed blocks make the parser panic. -/
theorem C38_checked_panics_iff (valid : Bytes → Bool) (i : Bytes) : parseBlock true valid i = .panic ↔ Crashing i := by
  constructor
  · intro h
    simp only [parseBlock] at h
    cases h0 : Emissary.beU 1 i with
    | none => rw [h0] at h; cases h
    | some x =>
      obtain ⟨ty, r⟩ := x
      rw [h0, of_bind] at h
      obtain ⟨rfl, hty⟩ := beU_some h0
      by_cases h2 : ty = 2
      · subst h2
        left
        simp only [parseBody, parseRouterInfo] at h
        cases h1 : Emissary.beU 2 r with
        | none => rw [h1] at h; cases h
        | some x =>
          obtain ⟨size, r1⟩ := x
          rw [h1, of_bind] at h
          obtain ⟨rfl, hs⟩ := beU_some h1
          by_cases hz : size = 0
          · simp only [hz, if_true] at h; cases h
          simp only [hz, if_false] at h
          cases h3 : Emissary.beU 1 r1 with
          | none => rw [h3] at h; cases h
          | some x =>
            obtain ⟨flag, r2⟩ := x
            rw [h3, of_bind] at h
            obtain ⟨rfl, _⟩ := beU_some h3
            simp only at h
            cases h4 : Emissary.beU 1 r2 with
            | none => rw [h4] at h; cases h
            | some x =>
              obtain ⟨frag, r3⟩ := x
              rw [h4, of_bind] at h
              obtain ⟨rfl, _⟩ := beU_some h4
              by_cases hlt : size < 2
              · have : size = 1 := by omega
                subst this
                exact ⟨flag, frag, r3, by simp only [List.append_assoc]⟩
              · simp only [sub2, hlt, if_false, ok_bind] at h
                refine absurd h (of_bind_ne_panic fun ⟨_, _⟩ => ?_)
                dsimp only
                split
                · exact err_ne_panic
                · split
                  · exact ok_ne_panic _
                  · exact err_ne_panic
      · by_cases h12 : ty = 12
        · subst h12
          right
          simp only [parseBody, parseAck] at h
          cases h1 : Emissary.beU 2 r with
          | none => rw [h1] at h; cases h
          | some x =>
            obtain ⟨size, r1⟩ := x
            rw [h1, of_bind] at h
            obtain ⟨rfl, hs⟩ := beU_some h1
            simp only at h
            cases h3 : Emissary.beU 4 r1 with
            | none => rw [h3] at h; cases h
            | some x =>
              obtain ⟨thr, r2⟩ := x
              rw [h3, of_bind] at h
              obtain ⟨rfl, _⟩ := beU_some h3
              simp only at h
              cases h4 : Emissary.beU 1 r2 with
              | none => rw [h4] at h; cases h
              | some x =>
                obtain ⟨n, r3⟩ := x
                rw [h4, of_bind] at h
                obtain ⟨rfl, _⟩ := beU_some h4
                simp only at h
                by_cases hz : size - 5 = 0
                · simp only [hz, if_true] at h; cases h
                simp only [hz, if_false] at h
                by_cases hev : (size - 5) % 2 = 0
                · simp only [hev, if_true] at h
                  exact absurd h (of_bind_ne_panic fun _ => ok_ne_panic _)
                · exact ⟨size, thr, n, r3, by omega, by omega, by omega, by simp only [List.append_assoc]⟩
        · exact absurd h (parseBody_ne_panic _ _ _ _ h2 h12)
  · rintro (⟨flag, frag, r, rfl⟩ | ⟨size, thr, n, r, h1, h2, h3, rfl⟩)
    · simp only [parseBlock, List.append_assoc, beU_be, of_bind, Nat.reducePow, Nat.reduceMod, parseBody, parseRouterInfo]
      rfl
    · have e : size % 65536 = size := Nat.mod_eq_of_lt h3
      have e1 : ¬ (size - 5 = 0) := by omega
      have e2 : ¬ ((size - 5) % 2 = 0) := by omega
      simp only [parseBlock, List.append_assoc, beU_be, of_bind, Nat.reducePow, Nat.reduceMod, parseBody, parseAck, e, e1, e2,
        if_false, if_true]

/-- C38 is violated as stated: a peer can send a payload on which a checked build panics. -/
theorem C38_panic_violated : ∃ i, i.length = 5 ∧ ∀ valid, parseBlocks true valid i = .panic :=
  ⟨[2, 0, 1, 0, 0], rfl, fun _ => rfl⟩

/-- C38: in an unchecked build the size field of an ACK block with an odd number of range bytes is not honoured: its ranges are
read as further blocks. The peer's 9-byte block with one range byte is taken to be an 8-byte block followed by a block. -/
theorem C38_size_field_not_honoured_violated (valid : Bytes → Bool) (thr n : Nat) (h1 : thr < 2 ^ 32) (h2 : n < 2 ^ 8)
    (p : Bytes) (hp : p.length < 65536) :
    parseBlocks false valid (be 1 12 ++ be 2 6 ++ be 4 thr ++ be 1 n ++ be 1 254 ++ be 2 p.length ++ p) =
      .ok [.ack thr n [], .padding p] := by
  have e1 : thr % 4294967296 = thr := Nat.mod_eq_of_lt h1
  have e2 : n % 256 = n := Nat.mod_eq_of_lt h2
  refine (C38_accepts_exactly_block_sequences false valid _ _).mpr
    ⟨[(be 1 12 ++ be 2 6 ++ be 4 thr ++ be 1 n, .ack thr n []), (be 1 254 ++ be 2 p.length ++ p, .padding p)],
      by simp, by simp [List.append_assoc], rfl, ?_⟩
  intro q hq
  simp only [List.mem_cons, List.not_mem_nil, or_false] at hq
  rcases hq with rfl | rfl
  · simp only [parseBlock, List.append_assoc, beU_be, of_bind, Nat.reducePow, Nat.reduceMod, parseBody, parseAck, beU_be_nil, e1, e2]
    rfl
  · have := parseBlock_wire false valid (.padding p) hp []
    rw [List.append_nil] at this
    exact this

example : parseBlocks true (fun _ => true) (([.dateTime 7, .ack 9 2 [(1, 3)], .followOn true 77 3 [1, 2],
      .routerInfo [5, 6], .address (.v4 [1, 2, 3, 4] 80), .padding [0, 0]] : List Block).map Block.wire).flatten =
    .ok [.dateTime 7, .ack 9 2 [(1, 3)], .followOn true 77 3 [1, 2], .routerInfo [5, 6], .unsupported, .padding [0, 0]] := by
  decide +kernel

end Emissary.Ssu2
