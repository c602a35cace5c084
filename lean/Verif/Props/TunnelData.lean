import Verif.Props.TunnelCrypto
import Verif.Props.I2np
import Verif.Lemmas.OMap
/-!
# C12, C13, C14, C15: tunnel data messages
-/
namespace Emissary.Tunnel
open Emissary Emissary.Stream

/-! ## Specification -/

/-- Delivery instructions with 32-byte router hashes and 32-bit tunnel ids. -/
def DI.Ok : DI → Prop
  | .loc => True
  | .router h => h.length = 32
  | .tunnel id h => id < 2 ^ 32 ∧ h.length = 32

/-- How piece `i` of a message cut into `ps` is labelled: a single piece is unfragmented, otherwise the first
carries the delivery instructions, the others their position, the last a marker. -/
def label (mid : Nat) (di : DI) (n i : Nat) : Kind :=
  if n = 1 then .unfragmented di
  else if i = 0 then .first mid di
  else if i + 1 = n then .last mid i
  else .middle mid i

/-- The labelled pieces. -/
def pieces (mid : Nat) (di : DI) (ps : List Bytes) : List Block :=
  ps.mapIdx (fun i p => ⟨label mid di ps.length i, p⟩)

/-- Random values of the right shape: 32-bit message id, 16-byte IVs. -/
structure Rnd.Ok (r : Rnd) : Prop where
  mid : r.mid < 2 ^ 32
  iv : ∀ i, (r.iv i).length = 16

/-- SHA-256 digests have 32 bytes. -/
def ShaOk (sha : Sha) : Prop := ∀ b, (sha b).length = 32

/-- Padding bytes of a tunnel: 1028 bytes, none zero. -/
def PadOk (p : Bytes) : Prop := p.length = tunnelDataLen ∧ ∀ b ∈ p, b ≠ 0

theorem paddingBytes_ok {random : Bytes} (h : random.length = tunnelDataLen) : PadOk (paddingBytes random) := by
  refine ⟨by simp [paddingBytes, h], ?_⟩
  intro b hb
  obtain ⟨x, _, rfl⟩ := List.mem_map.mp hb
  split
  · decide
  · assumption

/-! ## Blocks -/

def Kind.Ok : Kind → Prop
  | .unfragmented di => di.Ok
  | .first mid di => di.Ok ∧ mid < 2 ^ 32
  | .middle mid seq => mid < 2 ^ 32 ∧ seq < 64
  | .last mid seq => mid < 2 ^ 32 ∧ seq < 64

theorem parseSized_ok (k : Kind) (m r : Bytes) (h : m.length < 65536) :
    parseSized k (be 2 m.length ++ (m ++ r)) = some (⟨k, m⟩, r) := by
  have : m.length % 256 ^ 2 = m.length := Nat.mod_eq_of_lt (by simpa using h)
  simp only [parseSized, beU_be, bind_some_pair, this, takeN_append rfl]
  rfl

theorem parseDI_ok (di : DI) (h : di.Ok) (flag : Nat) (hf : flag / 32 % 4 = di.code) (r : Bytes) :
    parseDI flag (di.fields ++ r) = some (di, r) := by
  cases di with
  | loc => simp only [DI.code] at hf; simp only [parseDI, hf]; rfl
  | router hash =>
    simp only [DI.code] at hf
    simp only [parseDI, hf, DI.fields, takeN_append h, bind_some_pair]; rfl
  | tunnel id hash =>
    simp only [DI.code] at hf
    have : id % 256 ^ 4 = id := Nat.mod_eq_of_lt (by simpa using h.1)
    simp only [parseDI, hf, DI.fields, List.append_assoc, beU_be, bind_some_pair, takeN_append h.2, this]; rfl

theorem DI.code_lt (di : DI) : di.code < 3 := by cases di <;> simp [DI.code]

theorem parseBlock_ok (k : Kind) (hk : k.Ok) (m r : Bytes) (h : m.length < 65536) :
    parseBlock (k.serialize ++ (be 2 m.length ++ (m ++ r))) = some (⟨k, m⟩, r) := by
  cases k with
  | unfragmented di =>
    have hc := di.code_lt
    have hm : (di.code * 32) % 256 ^ 1 = di.code * 32 := Nat.mod_eq_of_lt (by omega)
    have h1 : ¬ (di.code * 32 / 128 = 1) := by omega
    have h2 : ¬ (di.code * 32 / 8 % 2 = 1) := by omega
    simp only [parseBlock, Kind.serialize, List.append_assoc, beU_be, bind_some_pair, hm, h1, if_false,
      parseDI_ok di hk (di.code * 32) (by omega), parseKind, h2, parseSized_ok _ m r h]
  | first mid di =>
    have hc := di.code_lt
    have hm : (8 + di.code * 32) % 256 ^ 1 = 8 + di.code * 32 := Nat.mod_eq_of_lt (by omega)
    have h1 : ¬ ((8 + di.code * 32) / 128 = 1) := by omega
    have h2 : (8 + di.code * 32) / 8 % 2 = 1 := by omega
    have h3 : mid % 256 ^ 4 = mid := Nat.mod_eq_of_lt (by simpa using hk.2)
    simp only [parseBlock, Kind.serialize, List.append_assoc, beU_be, bind_some_pair, hm, h1, if_false,
      parseDI_ok di hk.1 (8 + di.code * 32) (by omega), parseKind, h2, if_true, Option.pure_def, h3,
      parseSized_ok _ m r h]
  | middle mid seq =>
    have h3 : mid % 256 ^ 4 = mid := Nat.mod_eq_of_lt (by simpa using hk.1)
    have hs := hk.2
    have hm : (128 + seq % 64 * 2) % 256 ^ 1 = 128 + seq * 2 := by
      rw [Nat.mod_eq_of_lt (a := seq) hs]; exact Nat.mod_eq_of_lt (by omega)
    have h1 : (128 + seq * 2) / 128 = 1 := by omega
    have h2 : ¬ ((128 + seq * 2) % 2 = 1) := by omega
    have h4 : (128 + seq * 2) / 2 % 64 = seq := by omega
    simp only [parseBlock, Kind.serialize, List.append_assoc, beU_be, bind_some_pair, hm, h1, if_true,
      parseFollowOn, h2, if_false, h3, h4, parseSized_ok _ m r h]
  | last mid seq =>
    have h3 : mid % 256 ^ 4 = mid := Nat.mod_eq_of_lt (by simpa using hk.1)
    have hs := hk.2
    have hm : (128 + seq % 64 * 2 + 1) % 256 ^ 1 = 128 + seq * 2 + 1 := by
      rw [Nat.mod_eq_of_lt (a := seq) hs]; exact Nat.mod_eq_of_lt (by omega)
    have h1 : (128 + seq * 2 + 1) / 128 = 1 := by omega
    have h2 : (128 + seq * 2 + 1) % 2 = 1 := by omega
    have h4 : (128 + seq * 2 + 1) / 2 % 64 = seq := by omega
    simp only [parseBlock, Kind.serialize, List.append_assoc, beU_be, bind_some_pair, hm, h1, if_true,
      parseFollowOn, h2, h3, h4, parseSized_ok _ m r h]

theorem parseBlocks_single (k : Kind) (hk : k.Ok) (m : Bytes) (h : m.length < 65536) :
    parseBlocks (k.serialize ++ be 2 m.length ++ m) = some [⟨k, m⟩] := by
  have e : k.serialize ++ be 2 m.length ++ m = k.serialize ++ (be 2 m.length ++ (m ++ [])) := by simp
  rw [parseBlocks, e]
  simp only [parseInner, parseBlock_ok k hk m [] h, bind_some_pair]; rfl

theorem Kind.serialize_pos (k : Kind) : 0 < k.serialize.length := by cases k <;> simp [Kind.serialize] <;> omega

/-! ## One message -/

theorem padSlice_length {p : Bytes} (hp : p.length = tunnelDataLen) {n : Nat} (hn : n < tunnelDataLen) (rnd : Nat) :
    (padSlice p n rnd).length = n := by
  have : rnd % (tunnelDataLen - n) < tunnelDataLen - n := Nat.mod_lt _ (by omega)
  simp only [padSlice, List.length_take, List.length_drop, hp]; omega

theorem padSlice_ne {p : Bytes} (hp : PadOk p) (n rnd : Nat) : ∀ b ∈ padSlice p n rnd, b ≠ 0 := by
  intro b hb
  exact hp.2 b (List.mem_of_mem_drop (List.mem_of_mem_take hb))

/-- Layout of one message: header, checksum, padding, zero byte, payload. -/
theorem serialize_layout (sha : Sha) (tid : Nat) (di : Bytes) (ps : Nat) (m : Bytes) (padding : Option Bytes)
    (iv : Bytes) (rnd : Nat) (hpad : ∀ p, padding = some p → PadOk p) :
    ∃ pad : Bytes, (∀ b ∈ pad, b ≠ 0) ∧
      (padding = none → pad = []) ∧
      (∀ p, padding = some p → ps - m.length < tunnelDataLen → pad.length = ps - m.length) ∧
      serialize sha tid di ps m padding iv rnd =
        be 4 tid ++ iv ++ ((sha (di ++ be 2 m.length ++ m ++ iv)).take 4 ++ (pad ++ (0 :: (di ++ be 2 m.length ++ m)))) := by
  cases padding with
  | none => exact ⟨[], by simp, by simp, by simp, by simp [serialize, checksum]⟩
  | some p =>
    refine ⟨padSlice p (ps - m.length) rnd, padSlice_ne (hpad p rfl) _ _, by simp, ?_, by simp [serialize, checksum]⟩
    intro p' hp' hn
    obtain rfl : p = p' := by simpa using hp'
    exact padSlice_length (hpad _ rfl).1 hn _

theorem findIdx_pad (pad rest : Bytes) (h : ∀ b ∈ pad, b ≠ 0) :
    (pad ++ 0 :: rest).findIdx? (· = 0) = some pad.length := by
  induction pad with
  | nil => simp [List.findIdx?_cons]
  | cons b pad ih =>
    have hb : b ≠ 0 := h b (by simp)
    rw [List.cons_append, List.findIdx?_cons, ih (fun b hb => h b (by simp [hb]))]
    simp [hb]

/-- The checksummed layout is located and parsed. -/
theorem openPayload_layout (sha : Sha) (hsha : ShaOk sha) (pad payload iv : Bytes) (hpad : ∀ b ∈ pad, b ≠ 0)
    (hp : 0 < payload.length) :
    openPayload sha ((sha (payload ++ iv)).take 4 ++ (pad ++ (0 :: payload))) iv = parseBlocks payload := by
  have h4 : ((sha (payload ++ iv)).take 4).length = 4 := by simp [hsha (payload ++ iv)]
  have hd : ∀ n, ((sha (payload ++ iv)).take 4 ++ (pad ++ (0 :: payload))).drop (4 + n) = (pad ++ (0 :: payload)).drop n := by
    intro n
    rw [← List.drop_drop, List.drop_append_of_le_length (i := 4) (by omega),
      List.drop_of_length_le (i := 4) (by omega), List.nil_append]
  have hd2 : (pad ++ (0 :: payload)).drop (pad.length + 1) = payload := by
    rw [← List.drop_drop, List.drop_append_of_le_length (Nat.le_refl _), List.drop_length]; rfl
  have ht : ((sha (payload ++ iv)).take 4 ++ (pad ++ (0 :: payload))).take 4 = (sha (payload ++ iv)).take 4 := by
    rw [List.take_append_of_le_length (by omega), List.take_of_length_le (by omega)]
  have hf : findPayloadStart sha ((sha (payload ++ iv)).take 4 ++ (pad ++ (0 :: payload))) iv = some (pad.length + 1 + 4) := by
    have := hd 0
    simp only [Nat.add_zero, List.drop_zero] at this
    simp only [findPayloadStart, this, findIdx_pad pad payload hpad, ht]
    rw [Nat.add_assoc 4, hd, hd2]
    simp only [ne_eq, not_true_eq_false, if_false]
    rw [if_neg]
    simp only [List.length_append, h4, List.length_cons]
    omega
  have hs : pad.length + 1 + 4 = 4 + (pad.length + 1) := by omega
  simp only [openPayload, hf, bind_some_val]
  rw [hs, hd, hd2]

theorem serialize_opens (sha : Sha) (hsha : ShaOk sha) (tid : Nat) (k : Kind) (hk : k.Ok) (ps : Nat) (m : Bytes)
    (hm : m.length < 65536) (padding : Option Bytes) (hpad : ∀ p, padding = some p → PadOk p)
    (iv : Bytes) (hiv : iv.length = 16) (rnd : Nat) :
    let s := serialize sha tid k.serialize ps m padding iv rnd
    openPayload sha (s.drop 20) ((s.drop 4).take 16) = some [⟨k, m⟩] := by
  obtain ⟨pad, h1, _, _, h4⟩ := serialize_layout sha tid k.serialize ps m padding iv rnd hpad
  intro s
  have hd : ∀ x : Bytes, (be 4 tid ++ iv ++ x).drop 20 = x := by
    intro x
    rw [List.drop_append_of_le_length (by simp [hiv]), List.drop_of_length_le (by simp [hiv]), List.nil_append]
  have ht : ∀ x : Bytes, ((be 4 tid ++ iv ++ x).drop 4).take 16 = iv := by
    intro x
    rw [List.append_assoc, List.drop_append_of_le_length (by simp), List.drop_of_length_le (by simp), List.nil_append,
      List.take_append_of_le_length (by omega), List.take_of_length_le (by omega)]
  show openPayload sha (List.drop 20 (serialize sha tid k.serialize ps m padding iv rnd))
    (List.take 16 (List.drop 4 (serialize sha tid k.serialize ps m padding iv rnd))) = _
  rw [h4, hd, ht, openPayload_layout sha hsha pad _ iv h1, parseBlocks_single k hk m hm]
  have := k.serialize_pos
  simp only [List.length_append]; omega

theorem serialize_len (sha : Sha) (hsha : ShaOk sha) (tid : Nat) (di : Bytes) (ps : Nat) (m : Bytes) (padding : Option Bytes)
    (hpad : ∀ p, padding = some p → PadOk p) (iv : Bytes) (hiv : iv.length = 16) (rnd : Nat) 
    (hfit : m.length ≤ ps) (hps : 27 + di.length + ps = tunnelDataLen) (hnone : padding = none → m.length = ps) :
    (serialize sha tid di ps m padding iv rnd).length = tunnelDataLen := by
  obtain ⟨pad, _, h2, h3, h4⟩ := serialize_layout sha tid di ps m padding iv rnd hpad
  have hpl : pad.length = ps - m.length := by
    cases padding with
    | none => rw [h2 rfl, hnone rfl]; simp
    | some p => exact h3 p rfl (by simp only [tunnelDataLen] at *; omega)
  rw [h4]
  simp only [List.length_append, be_length, List.length_take, List.length_cons, hiv, hpl,
    hsha (di ++ be 2 m.length ++ m ++ iv)]
  simp only [tunnelDataLen] at *
  omega

theorem DI.serialize_len (di : DI) (h : di.Ok) : (Kind.unfragmented di).serialize.length = di.len := by
  cases di with
  | loc => rfl
  | router hash => simp only [DI.Ok] at h; simp [Kind.serialize, DI.fields, DI.len, h]
  | tunnel id hash => simp only [DI.Ok] at h; simp [Kind.serialize, DI.fields, DI.len, h.2]

theorem first_serialize_len (mid : Nat) (di : DI) (h : di.Ok) : (Kind.first mid di).serialize.length = di.len + 4 := by
  have := DI.serialize_len di h
  simp only [Kind.serialize, List.length_append, be_length] at *
  omega

theorem DI.len_bounds (di : DI) : 1 ≤ di.len ∧ di.len ≤ 37 := by cases di <;> simp [DI.len]

/-! ## The whole message -/

/-- The cut of a message that `build` makes. -/
def cut (di : DI) (msg : Bytes) : List Bytes :=
  if msg.length ≤ 1001 - di.len then [msg]
  else msg.take (997 - di.len) :: chunksOf 996 (msg.drop (997 - di.len)).length (msg.drop (997 - di.len))

theorem cut_flatten (di : DI) (msg : Bytes) : (cut di msg).flatten = msg := by
  simp only [cut]
  split
  · simp
  · rw [List.flatten_cons, chunksOf_flatten 996 _ (by decide) _ (Nat.le_refl _), List.take_append_drop]

/-- All chunks but the last are full. -/
theorem chunksOf_full (n : Nat) (hn : 0 < n) (fuel : Nat) (l : Bytes) (hf : l.length ≤ fuel) (i : Nat) (c : Bytes)
    (h : (chunksOf n fuel l)[i]? = some c) (hi : i + 1 < (chunksOf n fuel l).length) : c.length = n := by
  induction fuel generalizing l i with
  | zero => simp [chunksOf] at h
  | succ fuel ih =>
    simp only [chunksOf] at h hi
    split at h
    · simp at h
    · rename_i hne
      simp only [hne, Bool.false_eq_true, if_false, List.length_cons] at hi
      have hp : 0 < l.length := List.length_pos_iff.mpr (fun e => hne (by simp [e]))
      cases i with
      | zero =>
        simp only [List.getElem?_cons_zero, Option.some.injEq] at h
        subst h
        rw [List.length_take]
        rcases Nat.lt_or_ge l.length n with hlt | hge
        · have : l.drop n = [] := List.drop_of_length_le (by omega)
          rw [this] at hi
          cases fuel <;> simp [chunksOf] at hi
        · omega
      | succ i =>
        simp only [List.getElem?_cons_succ] at h
        exact ih _ (by simp; omega) i h (by omega)

theorem followOn_length (sha : Sha) (tid n size : Nat) (padding : Bytes) (r : Rnd) (cs : List Bytes) :
    ∀ idx, (followOn sha tid n size padding r idx cs).length = cs.length := by
  induction cs with
  | nil => intro _; rfl
  | cons c cs ih => intro idx; simp only [followOn, List.length_cons, ih]

theorem followOn_get (sha : Sha) (tid n size : Nat) (padding : Bytes) (r : Rnd) (cs : List Bytes) :
    ∀ idx j c, cs[j]? = some c → (followOn sha tid n size padding r idx cs)[j]? = some
      (if idx + j + 1 = n then
        serialize sha tid (Kind.last r.mid (idx + j + 1)).serialize size c (some padding) (r.iv (idx + j + 1)) (r.off (idx + j + 1))
      else
        serialize sha tid (Kind.middle r.mid (idx + j + 1)).serialize c.length c none (r.iv (idx + j + 1)) (r.off (idx + j + 1))) := by
  induction cs with
  | nil => intro _ j c h; simp at h
  | cons c0 cs ih =>
    intro idx j c h
    cases j with
    | zero =>
      simp only [List.getElem?_cons_zero, Option.some.injEq] at h
      subst h
      simp only [followOn, List.getElem?_cons_zero, Nat.add_zero]
    | succ j =>
      simp only [List.getElem?_cons_succ] at h
      simp only [followOn, List.getElem?_cons_succ]
      rw [ih (idx + 1) j c h]
      have : idx + 1 + j + 1 = idx + (j + 1) + 1 := by omega
      simp only [this]

theorem cut_length_fragmented {di : DI} {msg : Bytes} (h : ¬ msg.length ≤ 1001 - di.len) :
    2 ≤ (cut di msg).length := by
  have hb := di.len_bounds
  simp only [cut, h, if_false, List.length_cons]
  rw [chunksOf_length 996 _ (by decide) _ (Nat.le_refl _), List.length_drop]
  have : 1 ≤ (msg.length - (997 - di.len) + 996 - 1) / 996 := by
    apply (Nat.le_div_iff_mul_le (by decide)).mpr; omega
  omega

theorem build_length (sha : Sha) (tid : Nat) (di : DI) (msg padding : Bytes) (r : Rnd) :
    (build sha tid di msg padding r).length = (cut di msg).length := by
  have hb := di.len_bounds
  have e : tunnelDataLen - 16 - 4 - di.len - 4 - 1 - 2 = 1001 - di.len := by simp only [tunnelDataLen]; omega
  simp only [build, cut, e]
  split
  · simp
  · have e1 : 1001 - di.len - 4 = 997 - di.len := by omega
    have e2 : 1001 - di.len - 1 - 4 + di.len = 996 := by omega
    simp only [serializeFragmented, e1, e2, List.length_cons, followOn_length]

/-- Message `i` that `build` emits, in terms of the pieces of the message. -/
theorem build_get (sha : Sha) (tid : Nat) (di : DI) (hdi : di.Ok) (msg padding : Bytes) (hpad : PadOk padding) (r : Rnd) (i : Nat) (m : Bytes)
    (h : (build sha tid di msg padding r)[i]? = some m) :
    ∃ c ps pad?, (cut di msg)[i]? = some c ∧
      m = serialize sha tid (label r.mid di (cut di msg).length i).serialize ps c pad? (r.iv i) (r.off i) ∧
      (∀ p, pad? = some p → PadOk p) ∧ c.length ≤ ps ∧
      27 + (label r.mid di (cut di msg).length i).serialize.length + ps = tunnelDataLen ∧
      (pad? = none → c.length = ps) := by
  have hb := di.len_bounds
  have hlen : i < (build sha tid di msg padding r).length := by
    rcases Nat.lt_or_ge i (build sha tid di msg padding r).length with h' | h'
    · exact h'
    · rw [List.getElem?_eq_none h'] at h; simp at h
  rw [build_length] at hlen
  have e : tunnelDataLen - 16 - 4 - di.len - 4 - 1 - 2 = 1001 - di.len := by simp only [tunnelDataLen]; omega
  by_cases hfit : msg.length ≤ 1001 - di.len
  · have hc : cut di msg = [msg] := by simp only [cut, hfit, if_true]
    rw [hc] at hlen ⊢
    simp only [List.length_singleton] at hlen
    obtain rfl : i = 0 := by omega
    simp only [build, e, ge_iff_le, hfit, if_true, List.getElem?_cons_zero, Option.some.injEq] at h
    refine ⟨msg, 1001 - di.len, _, rfl, h.symm, ?_, hfit, ?_, ?_⟩
    · intro p hp; split at hp <;> simp at hp; subst hp; exact hpad
    · simp only [label, List.length_singleton, if_true, DI.serialize_len di hdi, tunnelDataLen]; omega
    · intro hn; split at hn
      · simp at hn
      · omega
  · have h2 := cut_length_fragmented hfit
    have hc : cut di msg = msg.take (997 - di.len) ::
        chunksOf 996 (msg.drop (997 - di.len)).length (msg.drop (997 - di.len)) := by simp only [cut, hfit, if_false]
    have e1 : 1001 - di.len - 4 = 997 - di.len := by omega
    have e2 : 1001 - di.len - 1 - 4 + di.len = 996 := by omega
    have hbuild : build sha tid di msg padding r = serializeFragmented sha tid di msg (1001 - di.len) padding r := by
      simp only [build, e, ge_iff_le, hfit, if_false]
    rw [hbuild] at h
    simp only [serializeFragmented, e1, e2] at h
    have hne : (cut di msg).length ≠ 1 := by omega
    generalize hcs : chunksOf 996 (msg.drop (997 - di.len)).length (msg.drop (997 - di.len)) = cs at *
    cases i with
    | zero =>
      simp only [List.getElem?_cons_zero, Option.some.injEq] at h
      refine ⟨msg.take (997 - di.len), 997 - di.len, none, by rw [hc]; rfl, ?_, by simp, ?_, ?_, ?_⟩
      · simp only [label, hne, if_false, if_true]; exact h.symm
      · simp; omega
      · simp only [label, hne, if_false, if_true, first_serialize_len r.mid di hdi, tunnelDataLen]; omega
      · intro _; simp only [List.length_take]; omega
    | succ i =>
      simp only [List.getElem?_cons_succ] at h
      have hcl : (cut di msg).length = cs.length + 1 := by rw [hc]; simp
      have hi : i < cs.length := by omega
      have hne' : ¬ (cs.length + 1 = 1) := by omega
      have hget : cs[i]? = some cs[i] := List.getElem?_eq_getElem hi
      rw [followOn_get sha tid cs.length 996 padding r cs 0 i _ hget] at h
      simp only [Nat.zero_add, Option.some.injEq] at h
      by_cases hl : i + 1 = cs.length
      · simp only [hl, if_true] at h
        refine ⟨cs[i], 996, some padding, by rw [hc]; exact hget, ?_, ?_, ?_, ?_, by simp⟩
        · simp only [label, hne', if_false, hcl, hl, Nat.succ_ne_zero, if_true]
          rw [← h]
          have : cs.length ≠ 0 := by omega
          simp only [hl, this, if_false]
        · intro p hp; simp at hp; subst hp; exact hpad
        · have := chunksOf_le 996 (msg.drop (997 - di.len)).length (msg.drop (997 - di.len)) cs[i]
          rw [hcs] at this
          exact this (List.getElem_mem hi)
        · have : cs.length ≠ 0 := by omega
          simp only [label, hne', if_false, hcl, hl, Nat.succ_ne_zero, if_true, this, Kind.serialize, List.length_append,
            be_length, tunnelDataLen]
      · simp only [hl, if_false] at h
        have hl' : ¬ (i + 1 + 1 = cs.length + 1) := by omega
        have hfull : cs[i].length = 996 := by
          have := chunksOf_full 996 (by decide) (msg.drop (997 - di.len)).length (msg.drop (997 - di.len)) (Nat.le_refl _) i cs[i]
          rw [hcs] at this
          exact this hget (by omega)
        refine ⟨cs[i], cs[i].length, none, by rw [hc]; exact hget, ?_, by simp, Nat.le_refl _, ?_, by simp⟩
        · simp only [label, hne', if_false, hcl, hl', Nat.succ_ne_zero]
          exact h.symm
        · simp only [label, hne', if_false, hcl, hl', Nat.succ_ne_zero, Kind.serialize, List.length_append,
            be_length, tunnelDataLen, hfull]

/-- C13: every message the builder emits is exactly 1028 bytes, whatever the message to send. -/
theorem C13_tunnel_data_fixed_size (sha : Sha) (hsha : ShaOk sha) (tid : Nat) (di : DI) (hdi : di.Ok) (msg random : Bytes)
    (hrandom : random.length = 1028) (r : Rnd) (hr : r.Ok) :
    ∀ m ∈ build sha tid di msg (paddingBytes random) r, m.length = 1028 := by
  intro m hm
  obtain ⟨i, hi⟩ := List.getElem?_of_mem hm
  obtain ⟨c, ps, pad?, _, rfl, h3, h4, h5, h6⟩ := build_get sha tid di hdi msg _ (paddingBytes_ok hrandom) r i m hi
  exact serialize_len sha hsha tid _ ps c pad? h3 _ (hr.iv i) _ h4 h5 h6

/-- A message of at most `997 - di.len + 63 * 996` bytes is cut into at most 64 pieces. -/
def Fits (di : DI) (msg : Bytes) : Prop := msg.length ≤ 997 - di.len + 63 * 996

theorem cut_le {di : DI} {msg : Bytes} (h : Fits di msg) : (cut di msg).length ≤ 64 := by
  simp only [cut]
  split
  · simp
  · rw [List.length_cons, chunksOf_length 996 _ (by decide) _ (Nat.le_refl _), List.length_drop]
    have : (msg.length - (997 - di.len) + 996 - 1) / 996 < 64 := by
      apply (Nat.div_lt_iff_lt_mul (by decide)).mpr
      simp only [Fits] at h; omega
    omega

theorem label_ok {mid : Nat} {di : DI} (hm : mid < 2 ^ 32) (hdi : di.Ok) {n i : Nat} (hn : n ≤ 64) (hi : i < n) :
    (label mid di n i).Ok := by
  simp only [label]
  split
  · exact hdi
  · split
    · exact ⟨hdi, hm⟩
    · split <;> exact ⟨hm, by omega⟩

/-- C15: the payload of message `i` is located exactly where the builder put it and contains exactly the piece `i`
of the message with its label; the pieces put together are the message. -/
theorem C15_built_payload_is_found (sha : Sha) (hsha : ShaOk sha) (tid : Nat) (di : DI) (hdi : di.Ok) (msg random : Bytes)
    (hrandom : random.length = 1028) (r : Rnd) (hr : r.Ok) (hfit : Fits di msg) :
    ∃ ps : List Bytes, ps.flatten = msg ∧
      (build sha tid di msg (paddingBytes random) r).map
        (fun m => openPayload sha (m.drop 20) ((m.drop 4).take 16)) = (pieces r.mid di ps).map (fun b => some [b]) := by
  refine ⟨cut di msg, cut_flatten di msg, ?_⟩
  apply List.ext_getElem?
  intro i
  rw [List.getElem?_map, List.getElem?_map]
  cases hg : (build sha tid di msg (paddingBytes random) r)[i]? with
  | none =>
    have : (cut di msg).length ≤ i := by
      rw [← build_length sha tid di msg (paddingBytes random) r]
      exact List.getElem?_eq_none_iff.mp hg
    have : (pieces r.mid di (cut di msg))[i]? = none := by simp [pieces, this]
    rw [this]; rfl
  | some m =>
    obtain ⟨c, ps, pad?, hc, rfl, h3, h4, h5, h6⟩ := build_get sha tid di hdi msg _ (paddingBytes_ok hrandom) r i m hg
    have hi : i < (cut di msg).length := by
      rcases Nat.lt_or_ge i (cut di msg).length with h' | h'
      · exact h'
      · rw [List.getElem?_eq_none h'] at hc; simp at hc
    have hp : (pieces r.mid di (cut di msg))[i]? = some ⟨label r.mid di (cut di msg).length i, c⟩ := by
      simp [pieces, hc]
    rw [hp]
    simp only [Option.map_some, Option.some.injEq]
    have hc65 : c.length < 65536 := by simp only [tunnelDataLen] at h5; omega
    exact serialize_opens sha hsha tid _ (label_ok hr.mid hdi (cut_le hfit) hi) ps c hc65 pad? h3 _ (hr.iv i) _

/-- C15: a decrypted message is accepted only if it is laid out as four checksum bytes, non-zero padding, a zero
byte and the payload, and the checksum is the one over payload and IV; nothing before the payload is used. -/
theorem C15_accepted_payload_is_checksummed (sha : Sha) (text iv : Bytes) (bs : List Block)
    (h : openPayload sha text iv = some bs) :
    ∃ cks pad payload, text = cks ++ (pad ++ (0 :: payload)) ∧ cks.length = 4 ∧ (∀ b ∈ pad, b ≠ 0) ∧
      cks = (sha (payload ++ iv)).take 4 ∧ payload ≠ [] ∧ parseBlocks payload = some bs := by
  simp only [openPayload] at h
  unbind h with s e
  simp only [findPayloadStart] at e
  cases hf : (text.drop 4).findIdx? (· = 0) with
  | none => simp [hf] at e
  | some k =>
    simp only [hf] at e
    split at e
    · simp at e
    · rename_i hck
      split at e
      · simp at e
      · rename_i hlt
        simp only [Option.some.injEq] at e
        subst e
        obtain ⟨hk1, hk2, hk3⟩ := List.findIdx?_eq_some_iff_getElem.mp hf
        have hlen : 4 ≤ text.length := by simp at hk1; omega
        have hz : (text.drop 4)[k] = 0 := by simpa using hk2
        refine ⟨text.take 4, (text.drop 4).take k, text.drop (4 + k + 1), ?_, by simp; omega, ?_, ?_, ?_, ?_⟩
        · have h1 : text = text.take 4 ++ text.drop 4 := (List.take_append_drop 4 text).symm
          have h2 : text.drop 4 = (text.drop 4).take k ++ (text.drop 4).drop k := (List.take_append_drop k _).symm
          have h3 : (text.drop 4).drop k = 0 :: text.drop (4 + k + 1) := by
            rw [List.drop_eq_getElem_cons hk1, hz, List.drop_drop]; congr 1
          rw [h3] at h2
          rw [← h2]; exact h1
        · intro b hb
          obtain ⟨j, hj, rfl⟩ := List.mem_iff_getElem.mp hb
          have hj' : j < k := by simp at hj; omega
          have := hk3 j hj'
          simp only [decide_eq_true_eq] at this
          rw [List.getElem_take]
          exact this
        · simpa using hck
        · intro hnil
          have := congrArg List.length hnil
          simp at this; omega
        · have : k + 1 + 4 = 4 + k + 1 := by omega
          rw [← this]; exact h

end Emissary.Tunnel
