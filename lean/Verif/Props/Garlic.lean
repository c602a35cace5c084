import Verif.Model.Garlic
import Verif.Lemmas.Codec
import Verif.Props.I2np
/-!
# Properties of garlic messages (C22, C61)
-/
namespace Emissary.Garlic
open Emissary Emissary.I2np

/-- A block value that the builder is given in the code: 32-bit and 16-bit fields, 32-byte hashes and keys, sizes
that fit their 16-bit length fields, and no forward next-key block that neither carries nor requests a key. -/
def Delivery.Ok : Delivery → Prop
  | .localNode => True
  | .destination h | .router h => h.length = 32
  | .tunnel h id => h.length = 32 ∧ id < 2 ^ 32

def Block.Ok : Block → Prop
  | .dateTime ts => ts < 2 ^ 32
  | .clove _ id exp d body => id < 2 ^ 32 ∧ exp / 1000000000 < 2 ^ 32 ∧ d.Ok ∧ body.length + 46 < 2 ^ 16
  | .nextKey (.forward keyId key rev) => keyId < 2 ^ 16 ∧ (∀ k, key = some k → k.length = 32) ∧
      (key.isSome = true ∨ rev = true)
  | .nextKey (.reverse keyId key) => keyId < 2 ^ 16 ∧ (∀ k, key = some k → k.length = 32)
  | .ackRequest => True
  | .ack acks => acks.length < 2 ^ 14 ∧ ∀ a ∈ acks, a.1 < 2 ^ 16 ∧ a.2 < 2 ^ 16
  | .termination | .options | .messageNumber | .padding _ => False

/-- What comes back from the wire: clove expirations are whole seconds. -/
def Block.onWire : Block → Block
  | .clove ty id exp d body => .clove ty id (exp / 1000000000 * 1000000000) d body
  | b => b

theorem parseDelivery_serialize (d : Delivery) (h : d.Ok) (r : Bytes) :
    parseDelivery (d.serialize ++ r) = some (d, r) := by
  cases d with
  | localNode => simp [parseDelivery, Delivery.serialize]
  | destination x =>
    simp only [Delivery.Ok] at h
    simp [parseDelivery, Delivery.serialize, takeN_append h]
  | router x =>
    simp only [Delivery.Ok] at h
    simp [parseDelivery, Delivery.serialize, takeN_append h]
  | tunnel x id =>
    obtain ⟨h1, h2⟩ := h
    have : id % 256 ^ 4 = id := Nat.mod_eq_of_lt (by omega)
    simp only [parseDelivery, Delivery.serialize, List.append_assoc, beU_be, bind_some_pair]
    simp [takeN_append h1, Nat.mod_eq_of_lt h2]

theorem Delivery.serialize_len (d : Delivery) (h : d.Ok) : d.serialize.length = d.len ∧ d.len ≤ 37 := by
  cases d <;> simp [Delivery.Ok] at h <;> simp [Delivery.serialize, Delivery.len, h]

theorem takeAcks_serialize (acks : List (Nat × Nat)) (h : ∀ a ∈ acks, a.1 < 2 ^ 16 ∧ a.2 < 2 ^ 16) (r : Bytes) :
    takeAcks acks.length ((acks.map (fun a => be 2 a.1 ++ be 2 a.2)).flatten ++ r) = some (acks, r) := by
  induction acks with
  | nil => rfl
  | cons a t ih =>
    obtain ⟨h1, h2⟩ := h a (by simp)
    have e1 : a.1 % 256 ^ 2 = a.1 := Nat.mod_eq_of_lt (by omega)
    have e2 : a.2 % 256 ^ 2 = a.2 := Nat.mod_eq_of_lt (by omega)
    simp only [List.length_cons, List.map_cons, List.flatten_cons, takeAcks, List.append_assoc, beU_be,
      bind_some_pair, e1, e2, ih (fun x hx => h x (List.mem_cons_of_mem _ hx))]
    rfl

theorem parseFrame_serialize (b : Block) (h : b.Ok) (x r : Bytes) (hx : b.serialize = some x) (fuel : Nat) :
    parseFrame (fuel + 1) (x ++ r) = some (b.onWire, r) := by
  cases b with
  | dateTime ts =>
    simp only [Block.Ok] at h
    simp only [Block.serialize, Option.some.injEq] at hx
    subst hx
    simp [parseFrame, parseDateTime, Block.onWire, Nat.mod_eq_of_lt h]
  | termination => cases h
  | options => cases h
  | messageNumber => cases h
  | padding _ => cases h
  | ackRequest =>
    simp only [Block.serialize, Option.some.injEq] at hx
    subst hx
    simp [parseFrame, parseAckRequest, Block.onWire]
  | nextKey k =>
    cases k with
    | forward keyId key rev =>
      obtain ⟨h1, h2, h3⟩ := h
      cases key with
      | none =>
        cases rev with
        | false => simp at h3
        | true =>
          simp [Block.serialize, forwardFlag] at hx
          subst hx
          simp [parseFrame, parseNextKey, parseOptKey, Block.onWire, Nat.mod_eq_of_lt h1]
      | some k =>
        have hk := h2 k rfl
        cases rev <;>
        · simp [Block.serialize, forwardFlag] at hx
          subst hx
          simp [parseFrame, parseNextKey, parseOptKey, Block.onWire, Nat.mod_eq_of_lt h1, takeN_append hk]
    | reverse keyId key =>
      obtain ⟨h1, h2⟩ := h
      cases key with
      | none =>
        simp [Block.serialize] at hx
        subst hx
        simp [parseFrame, parseNextKey, parseOptKey, Block.onWire, Nat.mod_eq_of_lt h1]
      | some k =>
        have hk := h2 k rfl
        simp [Block.serialize] at hx
        subst hx
        simp [parseFrame, parseNextKey, parseOptKey, Block.onWire, Nat.mod_eq_of_lt h1, takeN_append hk]
  | ack acks =>
    obtain ⟨h1, h2⟩ := h
    simp only [Block.serialize, Option.some.injEq] at hx
    subst hx
    have e0 : acks.length % 65536 * 4 % 256 ^ 2 = acks.length * 4 := by
      rw [Nat.mod_eq_of_lt (by omega), Nat.mod_eq_of_lt (by omega)]
    simp only [parseFrame, parseAck, List.append_assoc, beU_be, bind_some_pair, e0,
      show 8 % 256 ^ 1 = 8 by decide]
    rw [if_neg (by omega), Nat.mul_div_cancel _ (by decide), takeAcks_serialize acks h2]
    rfl
  | clove ty id exp d body =>
    obtain ⟨h1, h2, h3, h4⟩ := h
    simp only [Block.serialize, Option.some.injEq] at hx
    subst hx
    have hl := Delivery.serialize_len d h3
    have e0 : (d.len + 1 + 4 + 4 + body.length) % 256 ^ 2 = d.len + 1 + 4 + 4 + body.length :=
      Nat.mod_eq_of_lt (by omega)
    have e1 : id % 256 ^ 4 = id := Nat.mod_eq_of_lt (by omega)
    have e2 : asSecs exp % 256 ^ 4 = asSecs exp := Nat.mod_eq_of_lt (by unfold asSecs; omega)
    have e3 : ty.code % 256 ^ 1 = ty.code := Nat.mod_eq_of_lt (by simpa using ty.code_lt)
    have e4 : d.len + 1 + 4 + 4 + body.length - (d.len + 1 + 2 * 4) = body.length := by omega
    simp only [parseFrame, parseClove, List.append_assoc, beU_be, bind_some_pair, e0, e1, e2, e3,
      show 11 % 256 ^ 1 = 11 by decide, parseDelivery_serialize d h3, MessageType.ofCode_code, bind_some_val, e4,
      takeN_append (Eq.refl body.length)]
    rfl

theorem Block.serialize_ne_nil (b : Block) (x : Bytes) (hx : b.serialize = some x) : x ≠ [] := by
  cases b with
  | nextKey k =>
    cases k with
    | forward keyId key rev =>
      simp only [Block.serialize] at hx
      unbind hx with f e
      simp only [Option.pure_def, Option.some.injEq] at hx
      subst hx; simp [be]
    | reverse keyId key =>
      cases key <;> simp only [Block.serialize, Option.some.injEq] at hx <;> subst hx <;> simp [be]
  | _ => first
    | (simp only [Block.serialize, Option.some.injEq] at hx; subst hx; simp [be])
    | (simp [Block.serialize] at hx)

theorem parseInner_build (bs : List Block) (h : ∀ b ∈ bs, b.Ok) (hne : bs ≠ []) (out : Bytes)
    (ho : build bs = some out) (fuel : Nat) (hf : bs.length ≤ fuel) :
    parseInner fuel out = some (bs.map Block.onWire) := by
  induction bs generalizing out fuel with
  | nil => exact absurd rfl hne
  | cons b t ih =>
    simp only [build] at ho
    unbind ho with x ex
    unbind ho with y ey
    simp only [Option.pure_def, Option.some.injEq] at ho
    subst ho
    obtain ⟨fuel, rfl⟩ : ∃ f, fuel = f + 1 := ⟨fuel - 1, by simp at hf; omega⟩
    simp only [parseInner, parseFrame_serialize b (h b (by simp)) x y ex, bind_some_pair]
    cases t with
    | nil =>
      simp only [build, Option.some.injEq] at ey
      subst ey
      simp
    | cons c u =>
      have hy : y.isEmpty = false := by
        simp only [build] at ey
        unbind ey with z ez
        unbind ey with w ew
        simp only [Option.pure_def, Option.some.injEq] at ey
        subst ey
        have := Block.serialize_ne_nil c z ez
        cases z with
        | nil => exact absurd rfl this
        | cons _ _ => rfl
      rw [hy, ih (fun b hb => h b (List.mem_cons_of_mem _ hb)) (by simp) y ey fuel
        (by simp only [List.length_cons] at hf ⊢; omega)]
      rfl

theorem build_length (bs : List Block) (out : Bytes) (ho : build bs = some out) : bs.length ≤ out.length := by
  induction bs generalizing out with
  | nil => simp
  | cons b t ih =>
    simp only [build] at ho
    unbind ho with x ex
    unbind ho with y ey
    simp only [Option.pure_def, Option.some.injEq] at ho
    subst ho
    have h1 := List.length_pos_iff.mpr (Block.serialize_ne_nil b x ex)
    have := ih y ey
    simp only [List.length_cons, List.length_append]; omega

theorem build_ok (bs : List Block) (h : ∀ b ∈ bs, b.Ok) : ∃ out, build bs = some out := by
  induction bs with
  | nil => exact ⟨[], rfl⟩
  | cons b t ih =>
    obtain ⟨y, hy⟩ := ih (fun b hb => h b (List.mem_cons_of_mem _ hb))
    have hb := h b (by simp)
    have : ∃ x, b.serialize = some x := by
      cases b with
      | nextKey k =>
        cases k with
        | forward keyId key rev =>
          obtain ⟨_, _, h3⟩ := hb
          cases key <;> cases rev <;> simp at h3 <;> exact ⟨_, rfl⟩
        | reverse keyId key => cases key <;> exact ⟨_, rfl⟩
      | _ => first | exact ⟨_, rfl⟩ | cases hb
    obtain ⟨x, hx⟩ := this
    exact ⟨x ++ y, by simp [build, hx, hy]⟩

/-- C22: for every non-empty list of blocks the builder accepts, building succeeds and parsing the message returns
the same blocks in the same order (clove expirations cut to the second). -/
theorem C22_garlic_message_roundtrip (bs : List Block) (hne : bs ≠ []) (h : ∀ b ∈ bs, b.Ok) :
    ∃ out, build bs = some out ∧ parse out = some (bs.map Block.onWire) := by
  obtain ⟨out, ho⟩ := build_ok bs h
  exact ⟨out, ho, parseInner_build bs h hne out ho _ (Nat.le_succ_of_le (build_length bs out ho))⟩

/-- C22, padding: a padding block of any content inside a message is parsed and leaves the blocks after it
unaffected. -/
theorem C22_padding_block_parsed (p r : Bytes) (hp : p.length < 2 ^ 16) (fuel : Nat) :
    parseFrame (fuel + 1) (be 1 254 ++ be 2 p.length ++ p ++ r) = some (.padding p, r) := by
  have e0 : p.length % 256 ^ 2 = p.length := Nat.mod_eq_of_lt (by omega)
  simp only [parseFrame, parsePadding, List.append_assoc, beU_be, bind_some_pair, e0,
    show 254 % 256 ^ 1 = 254 by decide, takeN_append (Eq.refl p.length)]
  rfl

example : ∀ b ∈ [Block.dateTime 5, .nextKey (.forward 1 none true), .ack [(1, 2), (3, 4)], .ackRequest,
    .clove .data 7 9500000000 (.tunnel (List.replicate 32 1) 9) [1, 2, 3]], b.Ok := by
  simp [Block.Ok, Delivery.Ok]
  intro a b h; omega

example : (build [.dateTime 5, .nextKey (.forward 1 none true), .ack [(1, 2), (3, 4)], .ackRequest,
    .clove .data 7 9500000000 .localNode [1, 2, 3]]).bind parse
    = some [.dateTime 5, .nextKey (.forward 1 none true), .ack [(1, 2), (3, 4)], .ackRequest,
    .clove .data 7 9000000000 .localNode [1, 2, 3]] := by decide +kernel

/-! ## C61: unsupported blocks -/

/-- Block kinds the parser skips. -/
def Unsupported (ty : Nat) : Prop := ty < 256 ∧ ty ≠ 0 ∧ ty ≠ 7 ∧ ty ≠ 8 ∧ ty ≠ 9 ∧ ty ≠ 11 ∧ ty ≠ 254

theorem parseFrame_skip (ty : Nat) (hty : Unsupported ty) (p r : Bytes) (hp : p.length < 2 ^ 16) (fuel : Nat) :
    parseFrame (fuel + 1) (be 1 ty ++ be 2 p.length ++ p ++ r) = parseFrame fuel r := by
  obtain ⟨h0, h1, h2, h3, h4, h5, h6⟩ := hty
  have e0 : p.length % 256 ^ 2 = p.length := Nat.mod_eq_of_lt (by omega)
  have e1 : ty % 256 ^ 1 = ty := Nat.mod_eq_of_lt (by omega)
  simp only [parseFrame, List.append_assoc, beU_be, bind_some_pair, e1, skipBlock, e0,
    takeN_append (Eq.refl p.length), Option.pure_def]

/-- C61, the part that holds: an unsupported block before a supported one is skipped without any effect. -/
theorem C61_unsupported_block_skipped_partial (ty : Nat) (hty : Unsupported ty) (p : Bytes) (hp : p.length < 2 ^ 16)
    (b : Block) (hb : b.Ok) (x r : Bytes) (hx : b.serialize = some x) (fuel : Nat) :
    parseFrame (fuel + 2) (be 1 ty ++ be 2 p.length ++ p ++ (x ++ r)) = some (b.onWire, r) := by
  rw [parseFrame_skip ty hty p (x ++ r) hp (fuel + 1), parseFrame_serialize b hb x r hx fuel]

theorem parseFrame_nil (fuel : Nat) : parseFrame fuel [] = none := by
  cases fuel <;> rfl

theorem parseInner_trailing_unsupported (bs : List Block) (h : ∀ b ∈ bs, b.Ok) (out : Bytes)
    (ho : build bs = some out) (tail : Bytes) (hne : tail ≠ []) (ht : ∀ f, parseFrame f tail = none) (fuel : Nat) :
    parseInner fuel (out ++ tail) = none := by
  induction bs generalizing out fuel with
  | nil =>
    simp only [build, Option.some.injEq] at ho
    subst ho
    cases fuel with
    | zero => rfl
    | succ f =>
      rw [List.nil_append]; unfold parseInner; rw [ht]; rfl
  | cons b t ih =>
    simp only [build] at ho
    unbind ho with x ex
    unbind ho with y ey
    simp only [Option.pure_def, Option.some.injEq] at ho
    subst ho
    cases fuel with
    | zero => rfl
    | succ fuel =>
      have hy : (y ++ tail).isEmpty = false := by simp [hne]
      simp only [parseInner, List.append_assoc, parseFrame_serialize b (h b (by simp)) x (y ++ tail) ex,
        bind_some_pair, hy, ih (fun b hb => h b (List.mem_cons_of_mem _ hb)) y ey fuel]
      rfl

/-- C61 is violated: an unsupported block (termination, options, message number or a kind defined later) at the end
of a message makes the parser reject the whole message: every block before it is lost. -/
theorem C61_trailing_unsupported_block_drops_message_violated (bs : List Block) (h : ∀ b ∈ bs, b.Ok) (out : Bytes)
    (ho : build bs = some out) (ty : Nat) (hty : Unsupported ty) (p : Bytes) (hp : p.length < 2 ^ 16) :
    parse (out ++ (be 1 ty ++ be 2 p.length ++ p)) = none := by
  apply parseInner_trailing_unsupported bs h out ho _ (by simp [be])
  intro f
  cases f with
  | zero => rfl
  | succ f =>
    have := parseFrame_skip ty hty p [] hp f
    rw [List.append_nil] at this
    rw [this, parseFrame_nil]

example : Unsupported 4 ∧ Unsupported 5 := by simp [Unsupported]

end Emissary.Garlic
