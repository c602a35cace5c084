import Verif.Model.BuildRecord
import Verif.Lemmas.Codec
import Verif.Lemmas.Primitives
/-!
# Properties of tunnel build records (C23, C62)
-/
namespace Emissary.Build
open Emissary Emissary.I2np Emissary.Prim

theorem role_code (r : HopRole) : HopRole.ofCode r.code = some r ∧ r.code % 256 ^ 1 = r.code := by
  cases r <;> decide

theorem parseMulti_empty (E : Env) (r : Bytes) : Mapping.parseMulti E (be 2 0 ++ r) = some ([], r) := by
  have := Mapping.parseMulti_serialize (E := E) [] (by simp) (by simp) r
  simpa [Mapping.serializeMulti] using this

/-- C23: a short record is 154 bytes whatever the values and padding. -/
theorem C23_short_record_size (p : ShortParams) (rng : Nat → Bytes) (hr : ∀ n, (rng n).length = n)
    (hn : p.nextRouter.length = 32) : (p.serialize rng).length = 154 := by
  simp [ShortParams.serialize, hr, hn]

/-- C23: the receiving hop reads the values the creator wrote. -/
theorem C23_short_record_roundtrip (E : Env) (p : ShortParams) (rng : Nat → Bytes)
    (hn : p.nextRouter.length = 32) (h1 : p.tunnelId < 2 ^ 32) (h2 : p.nextTunnelId < 2 ^ 32)
    (h3 : p.nextMessageId < 2 ^ 32) :
    ShortRecord.parse E (p.serialize rng) = some
      { nextMessageId := p.nextMessageId, nextRouter := p.nextRouter, nextTunnelId := p.nextTunnelId, role := p.role,
        tunnelId := p.tunnelId } := by
  have e1 : p.tunnelId % 256 ^ 4 = p.tunnelId := Nat.mod_eq_of_lt (by omega)
  have e2 : p.nextTunnelId % 256 ^ 4 = p.nextTunnelId := Nat.mod_eq_of_lt (by omega)
  have e3 : p.nextMessageId % 256 ^ 4 = p.nextMessageId := Nat.mod_eq_of_lt (by omega)
  simp only [ShortRecord.parse, ShortRecord.parseFrame, ShortParams.serialize, List.append_assoc, beU_be,
    bind_some_pair, takeN_append hn, takeN_append (be_length 2 0), parseMulti_empty, takeN_all, (role_code p.role).1,
    (role_code p.role).2, bind_some_val, e1, e2, e3]
  rfl

example : ShortRecord.parse ⟨fun _ => [], fun _ => true, fun _ => true, fun _ _ _ => true, fun _ => none⟩
    ((⟨1, 2, List.replicate 32 7, .outboundEndpoint, 3, 4, 5⟩ : ShortParams).serialize (fun n => List.replicate n 9))
    = some ⟨5, List.replicate 32 7, 2, .outboundEndpoint, 1⟩ := by decide +kernel

/-- The bytes of a variable build record before its options, as the I2P specification lays them out. -/
def varHead (v : VarRecord) (replyKey replyIv : Bytes) (time exp : Nat) : Bytes :=
  be 4 v.tunnelId ++ be 4 v.nextTunnelId ++ v.nextRouter ++ v.layerKey ++ v.ivKey ++ replyKey ++ replyIv ++
    be 1 v.role.code ++ be 3 0 ++ be 4 time ++ be 4 exp ++ be 4 v.nextMessageId

/-- Field widths. -/
structure VarOk (v : VarRecord) (replyKey replyIv : Bytes) : Prop where
  t : v.tunnelId < 2 ^ 32
  n : v.nextTunnelId < 2 ^ 32
  m : v.nextMessageId < 2 ^ 32
  r : v.nextRouter.length = 32
  l : v.layerKey.length = 32
  i : v.ivKey.length = 32
  k : replyKey.length = 32
  v : replyIv.length = 16

theorem varHead_length {v : VarRecord} {rk ri : Bytes} (h : VarOk v rk ri) (time exp : Nat) :
    (varHead v rk ri time exp).length = 168 := by
  simp [varHead, h.r, h.l, h.i, h.k, h.v]

theorem varParse (E : Env) {v : VarRecord} {rk ri : Bytes} (h : VarOk v rk ri) (time exp : Nat)
    (opts : List Mapping) (ho : ∀ m ∈ opts, m.Ok E) (hs : (opts.map Mapping.serializedLen).sum < 65536) (pad : Bytes) :
    VarRecord.parse E (varHead v rk ri time exp ++ Mapping.serializeMulti opts ++ pad) =
      if (Mapping.serializeMulti opts).length + 168 ≤ pad.length then some v else none := by
  have e1 : v.tunnelId % 256 ^ 4 = v.tunnelId := Nat.mod_eq_of_lt (by have := h.t; omega)
  have e2 : v.nextTunnelId % 256 ^ 4 = v.nextTunnelId := Nat.mod_eq_of_lt (by have := h.n; omega)
  have e3 : v.nextMessageId % 256 ^ 4 = v.nextMessageId := Nat.mod_eq_of_lt (by have := h.m; omega)
  have hl : (varHead v rk ri time exp ++ Mapping.serializeMulti opts ++ pad).length - pad.length
      = (Mapping.serializeMulti opts).length + 168 := by
    simp only [List.length_append, varHead_length h]; omega
  unfold VarRecord.parse VarRecord.parseFrame
  generalize hL : (varHead v rk ri time exp ++ Mapping.serializeMulti opts ++ pad).length = L at hl ⊢
  simp only [varHead, List.append_assoc, beU_be, bind_some_pair, takeN_append h.r, takeN_append h.l,
    takeN_append h.i, takeN_append h.k, takeN_append h.v, takeN_append (be_length 3 0),
    Mapping.parseMulti_serialize opts ho hs, (role_code v.role).1,
    (role_code v.role).2, e1, e2, e3]
  by_cases hc : (Mapping.serializeMulti opts).length + 168 ≤ pad.length
  · rw [if_pos hc]
    simp only [takeN, hl, hc, if_true, bind_some_val]
    rfl
  · rw [if_neg hc]
    simp only [takeN, hl, hc, if_false]
    rfl

/-- C62, the part that holds: a 464-byte record whose options mapping (with its 2-byte size) takes at most 64 bytes
is parsed into the fields its creator wrote. -/
theorem C62_variable_record_parsed_partial (E : Env) {v : VarRecord} {rk ri : Bytes} (h : VarOk v rk ri)
    (time exp : Nat) (opts : List Mapping) (ho : ∀ m ∈ opts, m.Ok E) (pad : Bytes)
    (hsz : (varHead v rk ri time exp ++ Mapping.serializeMulti opts ++ pad).length = 464)
    (hk : (Mapping.serializeMulti opts).length ≤ 64) :
    VarRecord.parse E (varHead v rk ri time exp ++ Mapping.serializeMulti opts ++ pad) = some v := by
  have hh := varHead_length h time exp
  have hs : (opts.map Mapping.serializedLen).sum < 65536 := by
    have := Mapping.flatten_length opts
    simp only [Mapping.serializeMulti, List.length_append, be_length] at hk
    omega
  rw [varParse E h time exp opts ho hs, if_pos]
  simp only [List.length_append] at hsz
  omega

/-- C62 is violated: every 464-byte record with a well-formed options mapping longer than 64 bytes is rejected,
because the parser skips as many padding bytes as it has already consumed. -/
theorem C62_variable_record_options_rejected_violated (E : Env) {v : VarRecord} {rk ri : Bytes} (h : VarOk v rk ri)
    (time exp : Nat) (opts : List Mapping) (ho : ∀ m ∈ opts, m.Ok E) (pad : Bytes)
    (hsz : (varHead v rk ri time exp ++ Mapping.serializeMulti opts ++ pad).length = 464)
    (hk : 64 < (Mapping.serializeMulti opts).length) :
    VarRecord.parse E (varHead v rk ri time exp ++ Mapping.serializeMulti opts ++ pad) = none := by
  have hh := varHead_length h time exp
  simp only [List.length_append] at hsz
  have hs : (opts.map Mapping.serializedLen).sum < 65536 := by
    have := Mapping.flatten_length opts
    simp only [Mapping.serializeMulti, List.length_append, be_length] at hsz
    omega
  rw [varParse E h time exp opts ho hs, if_neg]
  omega

/-- Both cases occur: one mapping of 3 and one of 60 + 40 bytes. -/
example (E : Env) (hu : ∀ b, E.utf8 b = true) :
    let m : Mapping := ⟨List.replicate 60 97, List.replicate 40 98⟩
    m.Ok E ∧ 64 < (Mapping.serializeMulti [m]).length ∧ (Mapping.serializeMulti [m]).length ≤ 464 - 168 := by
  refine ⟨?_, ?_, ?_⟩
  · simp [Mapping.Ok, hu]
  · decide +kernel
  · decide +kernel

end Emissary.Build
