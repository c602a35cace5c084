import Verif.Lemmas.Ssu2Packet
/-!
# C74, C76-C78: SSU2 packets and the socket
-/
namespace Emissary.Ssu2
open Emissary Emissary.I2np Emissary.Ntcp2

theorem unle_le8 (n : Nat) (h : n < 2 ^ 64) : unle (le 8 n) = n := by
  simp only [unle, le, List.reverse_reverse, unbe_be]
  exact Nat.mod_eq_of_lt (by simpa using h)

theorem le_len (k n : Nat) : (le k n).length = k := by simp [le]

theorem dataHeader_eq (dst n : Nat) : dataHeader dst n = le 8 dst ++ (half2 n 6 0 0 0 ++ []) := by
  have : be 2 0 = be 1 0 ++ be 1 0 := by decide
  simp only [dataHeader, half2, List.append_assoc, this, List.append_nil]

theorem seal_len {C : Crypto} (hC : C.Lawful) (k : Bytes) (n : Nat) (ad p : Bytes) : (C.seal k n ad p).length = p.length + 16 :=
  hC.aead.len ..

theorem unseal_seal {C : Crypto} (hC : C.Lawful) (k : Bytes) (n : Nat) (ad p : Bytes) : C.unseal k n ad (C.seal k n ad p) = some p :=
  hC.aead.dec_enc ..

/-- The packet `buildData` makes. -/
theorem buildData_eq {C : Crypto} (hC : C.Lawful) (intro : Bytes) (kc : KeyCtx) (dst n : Nat) (body : Body)
    (acks : Option (Nat × Nat × Option (List (Nat × Nat)))) (tm : Option Nat) (hlen : 8 ≤ (body.bytes ++ ackBytes acks).length) :
    let p := C.seal kc.kData n (dataHeader dst n) (body.bytes ++ ackBytes acks)
    buildData C intro kc dst n body acks tm =
      .ok (xr (le 8 dst) (C.ks intro (iv1 p) 8) ++ (xr (half2 n 6 0 0 0) (C.ks kc.kHeader2 (iv2 p) 8) ++ p)) := by
  intro p
  have hp : 24 ≤ p.length := by rw [seal_len hC]; omega
  have e := obfuscate_eq hC intro kc.kHeader2 (le 8 dst) (half2 n 6 0 0 0) [] p (le_len ..) (half2_length ..) hp
  rw [← dataHeader_eq] at e
  simp only [buildData]
  rw [show C.seal kc.kData n (dataHeader dst n) (body.bytes ++ ackBytes acks) = p from rfl, e, ok_bind]
  simp [pure, List.append_assoc]

theorem openData_eq {C : Crypto} (hC : C.Lawful) (kc : KeyCtx) (dst n : Nat) (hn : n < 2 ^ 32) (payload : Bytes)
    (hlen : 8 ≤ payload.length) :
    let p := C.seal kc.kData n (dataHeader dst n) payload
    openData C kc (le 8 dst ++ (xr (half2 n 6 0 0 0) (C.ks kc.kHeader2 (iv2 p) 8) ++ p)) = .ok (n, payload) := by
  intro p
  have hp : 24 ≤ p.length := by rw [seal_len hC]; omega
  have hx : (xr (half2 n 6 0 0 0) (C.ks kc.kHeader2 (iv2 p) 8)).length = 8 := by
    rw [xr_length _ _ (by rw [half2_length, hC.ks]), half2_length]
  rw [openData, if_neg (by simp only [List.length_append, le_len, hx]; omega)]
  have hiv : ∀ q : Bytes, q.drop (q.length - 12) = iv2 q := fun _ => rfl
  simp only [hiv]
  rw [← List.append_assoc, iv2_append _ _ (by omega), List.append_assoc,
    xorAt_mid 8 _ _ _ _ (le_len ..) (by rw [hx, hC.ks]), xr_xr _ _ (by rw [half2_length, hC.ks])]
  obtain ⟨_, _, _, f4⟩ := fields (le 8 dst) (le_len ..) n 6 0 0 0 hn (by decide) (by decide) (by decide) p
  rw [f4]
  have hh : le 8 dst ++ half2 n 6 0 0 0 = dataHeader dst n := by rw [dataHeader_eq, List.append_nil]
  rw [← List.append_assoc, hh, List.take_left' (by simp [dataHeader, le_len]), List.drop_left' (by simp [dataHeader, le_len])]
  rw [unseal_seal hC]

/-- C74: a data packet built for a session is handed by the addressee's socket to the session with that connection id, whatever
other sessions there are, and opened there to the packet number and payload that were sent. -/
theorem C74_data_packet_delivered {σ : Type} {C : Crypto} (hC : C.Lawful) (intro : Bytes) (kc : KeyCtx) (dst n : Nat)
    (hdst : dst < 2 ^ 64) (hn : n < 2 ^ 32) (body : Body) (acks : Option (Nat × Nat × Option (List (Nat × Nat)))) (tm : Option Nat)
    (hlen : 8 ≤ (body.bytes ++ ackBytes acks).length) :
    ∃ pkt, buildData C intro kc dst n body acks tm = .ok pkt ∧
      ∀ (chk : Bool) (sessions : Nat → Option σ) (pending : Option Bytes) (tx : σ), sessions dst = some tx →
        ∃ pkt', route C chk intro sessions pending pkt = .deliver tx pkt' ∧
          openData C kc pkt' = .ok (n, body.bytes ++ ackBytes acks) := by
  refine ⟨_, buildData_eq hC intro kc dst n body acks tm hlen, fun chk sessions pending tx htx => ?_⟩
  have hp : 24 ≤ (C.seal kc.kData n (dataHeader dst n) (body.bytes ++ ackBytes acks)).length := by rw [seal_len hC]; omega
  refine ⟨_, ?_, openData_eq hC kc dst n hn _ hlen⟩
  rw [route, new_eq _ _ (by simp only [List.length_append]; omega)]
  simp only
  rw [← List.append_assoc, iv1_append _ _ hp, List.append_assoc, dstId_eq hC _ _ _ _ _ (le_len ..), unle_le8 _ hdst]
  simp only [htx]

/-! ## The message a packet carries -/

/-- Specification: the contents of a data packet as blocks. -/
inductive Carries : Body → List Block → Prop
  | none : Carries .none []
  | i2np (m : Message) : Carries (.i2np m.serializeShort) [.i2np m]
  | first (ty mid exp p) : Carries (.first ty mid exp p) [.first ty mid exp p]
  | followOn (mid num last p) : Carries (.followOn mid num last p) [.followOn last mid num p]

theorem Carries.wire {valid : Bytes → Bool} {body : Body} {bs : List Block} (h : Carries body bs) (ok : ∀ b ∈ bs, b.Ok valid) :
    body.bytes = (bs.map Block.wire).flatten := by
  cases h with
  | none => rfl
  | i2np m => simp [Body.bytes, Block.wire]
  | first ty mid exp p =>
    simp only [Body.bytes, Block.wire, List.map_cons, List.map_nil, List.flatten_cons, List.flatten_nil, List.append_nil]
    rw [show p.length + 1 + 4 + 4 = 9 + p.length by omega]
  | followOn mid num last p =>
    have h := ok _ (by simp : Block.followOn last mid num p ∈ [Block.followOn last mid num p])
    have hn : num < 128 := h.2.1
    simp only [Body.bytes, Block.wire, List.map_cons, List.map_nil, List.flatten_cons, List.flatten_nil, List.append_nil]
    rw [show p.length + 1 + 4 = 5 + p.length by omega, show num * 2 % 256 = 2 * num by omega]

/-- The ACK block a packet carries. -/
def ackBlocks : Option (Nat × Nat × Option (List (Nat × Nat))) → List Block
  | none => []
  | some (t, n, rs) => [.ack t n (rs.getD [])]

theorem ackBytes_wire (acks : Option (Nat × Nat × Option (List (Nat × Nat)))) : ackBytes acks = ((ackBlocks acks).map Block.wire).flatten := by
  match acks with
  | none => rfl
  | some (t, n, none) => simp [ackBytes, ackBlocks, Block.wire, rangeBytes]
  | some (t, n, some rs) => simp [ackBytes, ackBlocks, Block.wire, Nat.mul_comm]

/-- C74: … and the addressee's block parser finds exactly the message or fragment and the acknowledgement that were sent, in
every build. -/
theorem C74_contents_delivered {body : Body} {bs : List Block} (h : Carries body bs)
    (acks : Option (Nat × Nat × Option (List (Nat × Nat)))) (chk : Bool) (valid : Bytes → Bool)
    (ok : ∀ b ∈ bs ++ ackBlocks acks, b.Ok valid) (hne : bs ++ ackBlocks acks ≠ []) :
    8 ≤ (body.bytes ++ ackBytes acks).length ∧
      parseBlocks chk valid (body.bytes ++ ackBytes acks) = .ok (bs ++ ackBlocks acks) := by
  have hw : body.bytes ++ ackBytes acks = ((bs ++ ackBlocks acks).map Block.wire).flatten := by
    rw [h.wire (fun b hb => ok b (by simp [hb])), ackBytes_wire, List.map_append, List.flatten_append]
  have hseen : (bs ++ ackBlocks acks).map Block.seen = bs ++ ackBlocks acks := by
    rw [List.map_append]
    congr 1
    · cases h <;> rfl
    · match acks with
      | none => rfl
      | some (_, _, _) => rfl
  constructor
  · cases h with
    | none =>
      match acks with
      | none => simp [ackBlocks] at hne
      | some (_, _, none) => simp [ackBytes, Body.bytes]
      | some (_, _, some _) => simp [ackBytes, Body.bytes]; omega
    | i2np m =>
      simp only [Body.bytes, List.length_append, be_length, Message.serializeShort]
      omega
    | first => simp only [Body.bytes, List.length_append, be_length]; omega
    | followOn => simp only [Body.bytes, List.length_append, be_length]; omega
  · rw [hw, C38_blocks_roundtrip chk valid _ hne ok, hseen]

/-! ## The token of a Retry -/

/-- The first half of a packet for `dst` and the rest. -/
theorem buildRetry_eq {C : Crypto} (hC : C.Lawful) (intro : Bytes) (dst src token n now : Nat) (addr : SockAddr) (padding : Bytes) :
    let p := C.seal intro n (longHeader dst n 9 src (be 8 token)) (timeAddressPadding now addr padding)
    buildRetry C intro dst src token n now addr padding =
      .ok (xr (le 8 dst) (C.ks intro (iv1 p) 8) ++ (xr (half2 n 9 2 2 0) (C.ks intro (iv2 p) 8) ++
        (xr (le 8 src ++ be 8 token) (C.ks intro zeroIv 16) ++ p))) := by
  intro p
  have hp : 24 ≤ p.length := by
    rw [seal_len hC]; simp only [timeAddressPadding, List.length_append, be_length]; omega
  have e := obfuscate_eq hC intro intro (le 8 dst) (half2 n 9 2 2 0) (le 8 src ++ be 8 token) p (le_len ..) (half2_length ..) hp
  have hh : longHeader dst n 9 src (be 8 token) = le 8 dst ++ (half2 n 9 2 2 0 ++ (le 8 src ++ be 8 token)) := by
    simp only [longHeader, half2, List.append_assoc]
  simp only [buildRetry]
  rw [show C.seal intro n (longHeader dst n 9 src (be 8 token)) (timeAddressPadding now addr padding) = p from rfl, hh, e, ok_bind,
    maskTail_eq hC _ 16 _ _ _ (by rw [xr_length _ _ (by rw [le_len, hC.ks]), le_len])
      (by rw [xr_length _ _ (by rw [half2_length, hC.ks]), half2_length]) (by simp [le_len])]
  simp [pure, List.append_assoc]

theorem reparse_eq {C : Crypto} (k1 k2 pkt : Bytes) (h : 24 ≤ pkt.length) {k : Kind} {s : Reader}
    (hp : Reader.parse C ⟨k1, iv1 pkt, iv2 pkt, pkt⟩ k2 = .ok (some k, s)) : reparse C k1 k2 pkt = .ok (k, s.pkt) := by
  rw [reparse, new_eq _ _ h]; simp only [hp]

/-- What the initiator reads from a `Retry`. -/
theorem retry_read {C : Crypto} (hC : C.Lawful) (intro : Bytes) (dst src token n now : Nat) (addr : SockAddr) (padding : Bytes)
    (hn : n < 2 ^ 32) :
    ∃ pkt, buildRetry C intro dst src token n now addr padding = .ok pkt ∧
      reparse C intro intro (unmasked C intro pkt) =
        .ok (.retry 2 n (unle (be 8 token)), longHeader dst n 9 src (be 8 token) ++
          C.seal intro n (longHeader dst n 9 src (be 8 token)) (timeAddressPadding now addr padding)) := by
  refine ⟨_, buildRetry_eq hC intro dst src token n now addr padding, ?_⟩
  have hh : longHeader dst n 9 src (be 8 token) = le 8 dst ++ (half2 n 9 2 2 0 ++ (le 8 src ++ be 8 token)) := by
    simp only [longHeader, half2, List.append_assoc]
  generalize hpe : C.seal intro n (longHeader dst n 9 src (be 8 token)) (timeAddressPadding now addr padding) = p
  have hp : 24 ≤ p.length := by
    rw [← hpe, seal_len hC]; simp only [timeAddressPadding, List.length_append, be_length]; omega
  have hu := unmasked_eq hC intro (le 8 dst) (xr (half2 n 9 2 2 0) (C.ks intro (iv2 p) 8) ++
      xr (le 8 src ++ be 8 token) (C.ks intro zeroIv 16)) p (le_len ..) hp
  simp only [List.append_assoc] at hu ⊢
  rw [hu]
  have := (parse_long hC intro intro (iv1 p) (iv2 p) (le 8 dst) (le 8 src ++ be 8 token) p n 9 2 (le_len ..) hn
    (by decide)).2.2.1 rfl (by simp [le_len])
  rw [reparse_eq (k := .retry 2 n (unle (be 8 token)))
    (s := ⟨intro, iv1 p, iv2 p, le 8 dst ++ (half2 n 9 2 2 0 ++ ((le 8 src ++ be 8 token) ++ p))⟩)]
  · simp only [hh, List.append_assoc]
  · simp only [List.length_append, le_len]; omega
  · rw [iv1_3 _ _ _ _ hp, iv2_3 _ _ _ _ hp, this, List.drop_left' (le_len ..)]

/-- C74 (violated): the initiator reads the bytes of the token of a `Retry` in the opposite order: it is the value that was sent
only if that value is its own byte reversal. -/
theorem C74_retry_token_violated {C : Crypto} (hC : C.Lawful) (intro : Bytes) (dst src token n now : Nat) (addr : SockAddr)
    (padding : Bytes) (hn : n < 2 ^ 32) (ht : token < 2 ^ 64) :
    ∃ pkt t pkt', buildRetry C intro dst src token n now addr padding = .ok pkt ∧
      reparse C intro intro (unmasked C intro pkt) = .ok (.retry 2 n t, pkt') ∧ (t = token ↔ (be 8 token).reverse = be 8 token) := by
  obtain ⟨pkt, h1, h2⟩ := retry_read hC intro dst src token n now addr padding hn
  refine ⟨pkt, _, _, h1, h2, ?_⟩
  constructor
  · intro h
    have e := be_unbe (be 8 token).reverse
    simp only [List.length_reverse, be_length] at e
    rw [show unbe (be 8 token).reverse = token from h] at e
    exact e.symm
  · intro h
    rw [unle, h, unbe_be]
    exact Nat.mod_eq_of_lt (by simpa using ht)

/-- C74: token 1 is read as `2^56`. -/
theorem C74_retry_token_example_violated : unle (be 8 1) = 2 ^ 56 := by decide +kernel

/-! ## Datagrams that crash the socket -/

/-- C76 (violated): whatever the keys, anyone who knows the router's published intro key can make, for every length from 40 to 63
bytes and every connection id that is not in use, a datagram that panics the socket. -/
theorem C76_datagram_panics_violated {σ : Type} {C : Crypto} (hC : C.Lawful) (chk : Bool) (intro : Bytes)
    (sessions : Nat → Option σ) (pending : Option Bytes) (dst : Nat) (hdst : dst < 2 ^ 64) (hfree : sessions dst = none) (l : Nat)
    (h1 : 40 ≤ l) (h2 : l < 64) :
    ∃ pkt : Bytes, pkt.length = l ∧ route C chk intro sessions pending pkt = .panic := by
  let p : Bytes := List.replicate (l - 16) 0
  have hp : 24 ≤ p.length := by simp [p]; omega
  have hl1 : (xr (le 8 dst) (C.ks intro (iv1 p) 8)).length = 8 := by rw [xr_length _ _ (by rw [le_len, hC.ks]), le_len]
  have hl2 : (xr (half2 0 0 2 2 0) (C.ks intro (iv2 p) 8)).length = 8 := by
    rw [xr_length _ _ (by rw [half2_length, hC.ks]), half2_length]
  refine ⟨xr (le 8 dst) (C.ks intro (iv1 p) 8) ++ (xr (half2 0 0 2 2 0) (C.ks intro (iv2 p) 8) ++ p), ?_, ?_⟩
  · simp only [List.length_append, hl1, hl2]; simp [p]; omega
  · rw [route, new_eq _ _ (by simp only [List.length_append]; omega)]
    simp only
    rw [← List.append_assoc, iv1_append _ _ hp, iv2_append _ _ (by omega), List.append_assoc, dstId_eq hC _ _ _ _ _ (le_len ..),
      unle_le8 _ hdst]
    simp only [hfree]
    obtain ⟨f1, f2, _, _⟩ := fields (le 8 dst) (le_len ..) 0 0 2 2 0 (by decide) (by decide) (by decide) (by decide) p
    rw [Reader.parse]
    simp only [mask8_eq hC intro intro (iv1 p) (iv2 p) (le 8 dst) (half2 0 0 2 2 0) p (le_len ..) (half2_length ..), f1, f2, ne_eq,
      not_true_eq_false, if_false]
    rw [Reader.tail, if_pos (by simp only [List.length_append, le_len, half2_length]; simp [p]; omega)]
    rfl

theorem xorAt_length (off : Nat) (mask pkt : Bytes) (h : off + mask.length ≤ pkt.length) : (xorAt off mask pkt).length = pkt.length := by
  simp only [xorAt, List.length_append, List.length_take, List.length_zipWith, List.length_drop]; omega

theorem parse_ne_panic {C : Crypto} (hC : C.Lawful) (s : Reader) (k2 : Bytes) (h : 64 ≤ s.pkt.length) : s.parse C k2 ≠ .panic := by
  have hl : (s.mask C k2 s.iv2 8).pkt.length = s.pkt.length := by
    simp only [Reader.mask]
    exact xorAt_length _ _ _ (by rw [hC.ks]; omega)
  have ht : ∀ n, n ≤ 48 → ∃ s', (s.mask C k2 s.iv2 8).tail C k2 n = .ok s' := by
    intro n hn
    rw [Reader.tail, if_neg (by omega)]
    exact ⟨_, rfl⟩
  obtain ⟨a, ha⟩ := ht 48 (by omega)
  obtain ⟨b, hb⟩ := ht 16 (by omega)
  unfold Reader.parse
  simp only [ha, hb, ok_bind]
  split <;> (try split) <;> intro e <;> cases e

/-- C76: a datagram of at least 64 bytes never panics the socket of a build without debug assertions, and one of fewer than 24
bytes is refused in every build. Missing: lengths between; see `C76_datagram_panics_violated`. -/
theorem C76_long_and_short_datagrams_partial {σ : Type} {C : Crypto} (hC : C.Lawful) (intro : Bytes)
    (sessions : Nat → Option σ) (pending : Option Bytes) (pkt : Bytes) :
    (64 ≤ pkt.length → route C false intro sessions pending pkt ≠ .panic) ∧
    (∀ chk, pkt.length < 24 → route C chk intro sessions pending pkt = .error) := by
  constructor
  · intro h
    rw [route, new_eq _ _ (by omega)]
    simp only
    have hl : ((Reader.dstId C ⟨intro, iv1 pkt, iv2 pkt, pkt⟩).2).pkt.length = pkt.length := by
      simp only [Reader.dstId, Reader.mask]
      exact xorAt_length _ _ _ (by rw [hC.ks]; omega)
    generalize hd : Reader.dstId C ⟨intro, iv1 pkt, iv2 pkt, pkt⟩ = d at hl ⊢
    obtain ⟨cid, s⟩ := d
    simp only at hl ⊢
    have hnp := parse_ne_panic hC s intro (by omega)
    split
    · intro e; cases e
    · split <;> first | contradiction | (intro e; cases e; done) | skip
      split
      · intro e; cases e
      · split
        · intro e; cases e
        · simp only [Bool.false_eq_true, if_false]; intro e; cases e
  · intro chk h
    rw [route, new_none _ _ h]

/-! ## Closing a session -/

/-- C77 (violated): telling the peer that the session is closed panics, whatever the keys and the reason. -/
theorem C77_termination_panics_violated {C : Crypto} (hC : C.Lawful) (intro : Bytes) (kc : KeyCtx) (dst n reason : Nat) :
    terminationPacket C intro kc dst n reason = .panic := by
  have hl : (C.seal kc.kData n (dataHeader dst n) (Body.bytes .none ++ ackBytes none)).length < 24 := by
    rw [seal_len hC]; simp [Body.bytes, ackBytes]
  simp only [terminationPacket, buildData, obfuscate, if_pos hl]
  rfl

/-! ## Which session a packet is for -/

/-- The connection id of a packet, read with a key. -/
def connId (C : Crypto) (key pkt : Bytes) : Nat := unle ((unmasked C key pkt).take 8)

theorem dstId_eq' (C : Crypto) (key pkt : Bytes) :
    Reader.dstId C ⟨key, iv1 pkt, iv2 pkt, pkt⟩ = (connId C key pkt, ⟨key, iv1 pkt, iv2 pkt, unmasked C key pkt⟩) := by
  simp only [Reader.dstId, Reader.mask, connId, unmasked]

/-- C78: a packet whose connection id, read with the router's own key, is that of a session goes to that session. -/
theorem C78_own_key {σ : Type} (C : Crypto) (chk : Bool) (intro : Bytes) (sessions : Nat → Option σ) (pending : Option Bytes)
    (pkt : Bytes) (hl : 24 ≤ pkt.length) (tx : σ) (h : sessions (connId C intro pkt) = some tx) :
    route C chk intro sessions pending pkt = .deliver tx (unmasked C intro pkt) := by
  rw [route, new_eq _ _ hl]
  simp only [dstId_eq', h]

theorem split8 (pkt : Bytes) (h : 16 ≤ pkt.length) : ∃ a b r, pkt = a ++ (b ++ r) ∧ a.length = 8 ∧ b.length = 8 :=
  ⟨pkt.take 8, (pkt.drop 8).take 8, (pkt.drop 8).drop 8, by rw [List.take_append_drop, List.take_append_drop], by simp; omega, by simp; omega⟩

theorem parse_none {C : Crypto} (s s' : Reader) (k2 : Bytes) (h : s.parse C k2 = .ok (none, s')) : s' = s.mask C k2 s.iv2 8 := by
  unfold Reader.parse at h
  simp only at h
  split at h
  all_goals
    first
      | (cases h; done)
      | (cases h; rfl)
      | (split at h
         · cases h; rfl
         · cases ht : (s.mask C k2 s.iv2 8).tail C k2 48 <;> simp only [ht, ok_bind] at h <;> cases h)
      | (split at h
         · cases h; rfl
         · cases ht : (s.mask C k2 s.iv2 8).tail C k2 16 <;> simp only [ht, ok_bind] at h <;> cases h)

/-- Unmasking attempts with the wrong key leave no trace. -/
theorem reset {C : Crypto} (hC : C.Lawful) (intro key pkt : Bytes) (hl : 24 ≤ pkt.length) :
    Reader.resetKey C (Reader.mask C ⟨intro, iv1 pkt, iv2 pkt, unmasked C intro pkt⟩ intro (iv2 pkt) 8) key =
      ⟨key, iv1 pkt, iv2 pkt, pkt⟩ := by
  obtain ⟨a, b, r, e, ha, hb⟩ := split8 pkt (by omega)
  simp only [Reader.resetKey, Reader.mask, unmasked]
  generalize iv1 pkt = i1
  generalize iv2 pkt = i2
  subst e
  have ka : a.length = (C.ks intro i1 8).length := by rw [ha, hC.ks]
  have kb : b.length = (C.ks intro i2 8).length := by rw [hb, hC.ks]
  rw [xorAt_zero _ _ _ ka, xorAt_mid 8 _ _ _ _ (by rw [xr_length _ _ ka, ha]) kb,
    xorAt_zero _ _ _ (by rw [xr_length _ _ ka, ← ka]), xr_xr _ _ ka,
    xorAt_mid 8 _ _ _ _ ha (by rw [xr_length _ _ kb, ← kb]), xr_xr _ _ kb]

/-- C78: a packet from an address being dialled that means nothing under the router's own key (no session has its connection id,
its header does not decode) goes to the session whose connection id it has under the dialled router's key, with that key's
mask removed and nothing else changed. Missing: packets that do decode; see `C78_dialled_packet_dropped_violated`. -/
theorem C78_dialled_key_partial {σ : Type} {C : Crypto} (hC : C.Lawful) (chk : Bool) (intro : Bytes) (sessions : Nat → Option σ)
    (key pkt : Bytes) (hl : 24 ≤ pkt.length) (hno : sessions (connId C intro pkt) = none) (s' : Reader)
    (hun : Reader.parse C ⟨intro, iv1 pkt, iv2 pkt, unmasked C intro pkt⟩ intro = .ok (none, s')) (tx : σ)
    (h : sessions (connId C key pkt) = some tx) :
    route C chk intro sessions (some key) pkt = .deliver tx (unmasked C key pkt) := by
  have := parse_none _ _ _ hun
  subst this
  rw [route, new_eq _ _ hl]
  simp only [dstId_eq', hno, hun]
  rw [reset hC intro key pkt hl, dstId_eq']
  simp only [h]

/-- C78: a packet is only ever handed to a session whose connection id it has, under the router's own key or, if the sender is
being dialled, under the key of the dialled router; only the mask of the first half of the header is removed. -/
theorem C78_only_the_addressee {σ : Type} {C : Crypto} (hC : C.Lawful) (chk : Bool) (intro : Bytes) (sessions : Nat → Option σ)
    (pending : Option Bytes) (pkt pkt' : Bytes) (tx : σ) (h : route C chk intro sessions pending pkt = .deliver tx pkt') :
    ∃ key, (key = intro ∨ pending = some key) ∧ sessions (connId C key pkt) = some tx ∧ pkt' = unmasked C key pkt := by
  unfold route at h
  by_cases hl : pkt.length < 24
  · rw [new_none _ _ hl] at h; cases h
  · rw [new_eq _ _ (by omega)] at h
    simp only [dstId_eq'] at h
    split at h
    · next tx0 htx =>
      injection h with h1 h2
      exact ⟨intro, .inl rfl, by rw [htx, h1], h2.symm⟩
    · split at h
      · cases h
      · cases h
      · cases h
      · cases h
      · next s' hp =>
        have := parse_none _ _ _ hp
        subst this
        split at h
        · cases h
        · next key =>
          rw [reset hC intro key pkt (by omega), dstId_eq'] at h
          simp only at h
          split at h
          · next tx0 htx =>
            injection h with h1 h2
            exact ⟨key, .inr rfl, by rw [htx, h1], h2.symm⟩
          · split at h <;> cases h

/-- C78 (violated): a packet of a router being dialled whose bytes 8 to 15 happen to read as a data header under the router's own
key is dropped, whatever session it is for: for every connection id and content there is such a packet. -/
theorem C78_dialled_packet_dropped_violated {C : Crypto} (hC : C.Lawful) (intro key p : Bytes) (dst : Nat)
    (hdst : dst < 2 ^ 64) (hp : 24 ≤ p.length) (hk : connId C intro (xr (le 8 dst) (C.ks key (iv1 p) 8) ++ p) ≠ dst) :
    ∃ hdr : Bytes, hdr.length = 8 ∧
      let pkt := xr (le 8 dst) (C.ks key (iv1 p) 8) ++ (hdr ++ p)
      connId C key pkt = dst ∧
      ∀ chk, route C chk intro (fun c => if c = dst then some () else none) (some key) pkt = .dropped := by
  have hl2 : (xr (half2 0 6 0 0 0) (C.ks intro (iv2 p) 8)).length = 8 := by
    rw [xr_length _ _ (by rw [half2_length, hC.ks]), half2_length]
  have ka : (le 8 dst).length = (C.ks key (iv1 p) 8).length := by rw [le_len, hC.ks]
  have kx : (xr (le 8 dst) (C.ks key (iv1 p) 8)).length = 8 := by rw [xr_length _ _ ka, le_len]
  have hc : ∀ r, connId C intro (xr (le 8 dst) (C.ks key (iv1 p) 8) ++ (r ++ p)) =
      unle (xr (xr (le 8 dst) (C.ks key (iv1 p) 8)) (C.ks intro (iv1 p) 8)) := by
    intro r
    rw [connId, unmasked, ← List.append_assoc, iv1_append _ _ hp, List.append_assoc, xorAt_zero _ _ _ (by rw [kx, hC.ks]),
      List.take_left' (by rw [xr_length _ _ (by rw [kx, hC.ks]), kx])]
  refine ⟨xr (half2 0 6 0 0 0) (C.ks intro (iv2 p) 8), hl2, ?_, fun chk => ?_⟩
  · rw [connId, unmasked_eq hC _ _ _ _ (le_len ..) hp, List.take_left' (le_len ..), unle_le8 _ hdst]
  · rw [route, new_eq _ _ (by simp only [List.length_append]; omega)]
    simp only [dstId_eq']
    have h0 := hc []
    rw [List.nil_append] at h0
    rw [h0] at hk
    rw [if_neg (by rw [hc]; exact hk)]
    simp only
    have hu : unmasked C intro (xr (le 8 dst) (C.ks key (iv1 p) 8) ++ (xr (half2 0 6 0 0 0) (C.ks intro (iv2 p) 8) ++ p)) =
        xr (xr (le 8 dst) (C.ks key (iv1 p) 8)) (C.ks intro (iv1 p) 8) ++ (xr (half2 0 6 0 0 0) (C.ks intro (iv2 p) 8) ++ p) := by
      rw [unmasked, ← List.append_assoc, iv1_append _ _ hp, List.append_assoc, xorAt_zero _ _ _ (by rw [kx, hC.ks])]
    have hi : ∀ x y : Bytes, iv2 (x ++ (y ++ p)) = iv2 p := fun x y => by
      rw [← List.append_assoc, iv2_append _ _ (by omega)]
    rw [hu, hi]
    rw [(parse_short hC intro intro _ (iv2 p) _ p 0 6 0 0 0 (by rw [xr_length _ _ (by rw [kx, hC.ks]), kx]) (by decide)
      (by decide) (by decide)).2 rfl]

/-! ## Nonces -/

theorem sentNums_below (chk : Bool) (k n : Nat) (h : n + k < 2 ^ 32) : sentNums chk n k = .ok (List.range' n k) := by
  induction k generalizing n with
  | zero => rfl
  | succ k ih =>
    rw [sentNums, nextNum, if_pos (by omega), ok_bind]
    simp only [ih (n + 1) (by omega), ok_bind]
    rfl

/-- C84: a session, whose first packet number is 1 (active/mod.rs 167), never encrypts two packets under the same number, as
long as it sends fewer than `2^32 - 1` packets, in every build. Missing: longer sessions, see `C84_nonce_reuse_violated`. -/
theorem C84_nonces_distinct_partial (chk : Bool) (k : Nat) (h : 1 + k < 2 ^ 32) :
    ∃ ns, sentNums chk 1 k = .ok ns ∧ ns.length = k ∧ ns.Nodup ∧ ∀ n ∈ ns, 0 < n ∧ n < 2 ^ 32 :=
  ⟨_, sentNums_below chk k 1 h, by simp, List.nodup_range', fun n hn => by
    rw [List.mem_range'_1] at hn; omega⟩

theorem sentNums_append (chk : Bool) (j k n : Nat) (h : n + j < 2 ^ 32) :
    sentNums chk n (j + k) = (sentNums chk (n + j) k >>= fun ms => Res.ok (List.range' n j ++ ms)) := by
  induction j generalizing n with
  | zero =>
    simp only [Nat.zero_add, Nat.add_zero, List.range'_zero, List.nil_append]
    cases sentNums chk n k <;> rfl
  | succ j ih =>
    rw [show j + 1 + k = (j + k) + 1 by omega, sentNums, nextNum, if_pos (by omega), ok_bind]
    simp only [ih (n + 1) (by omega)]
    rw [show n + (j + 1) = n + 1 + j by omega]
    cases sentNums chk (n + 1 + j) k <;> rfl

/-- C84 (violated): builds without overflow checks go on after `2^32 - 1` packets and use the number 0 and then 1 a second time. -/
theorem C84_nonce_reuse_violated : ∃ ns, sentNums false 1 (2 ^ 32 - 2 + 3) = .ok ns ∧ ¬ ns.Nodup := by
  have h3 : sentNums false (1 + (2 ^ 32 - 2)) 3 = .ok [2 ^ 32 - 1, 0, 1] := by decide
  rw [sentNums_append false (2 ^ 32 - 2) 3 1 (by decide), h3]
  refine ⟨_, rfl, fun h => ?_⟩
  have := (List.nodup_append.mp h).2.2 1 (by rw [List.mem_range'_1]; omega) 1 (by simp)
  exact this rfl

/-! ## Non-vacuity -/

/-- Toy primitives: an invertible sealing (see `toyA`) and a keystream that depends on the key. -/
def toyC : Crypto := ⟨fun k iv n => List.replicate n (k.foldl (· + ·) 7 ^^^ iv.foldl (· + ·) 3), toyA⟩

theorem toyC_lawful : toyC.Lawful := ⟨toyA_lawful, fun _ _ _ => by simp [toyC]⟩

/-- A fragment and an acknowledgement travel through the toy channel, and a session of the same router is not disturbed. -/
example : (do
    let pkt ← buildData toyC [1, 2] ⟨[3], [4]⟩ 77 5 (.followOn 9 1 true [1, 2, 3]) (some (4, 2, some [(1, 1)])) none
    match route toyC true [1, 2] (fun c => if c = 77 then some "s77" else if c = 78 then some "s78" else none) none pkt with
    | .deliver tx pkt' => do
      let (n, payload) ← openData toyC ⟨[3], [4]⟩ pkt'
      let bs ← parseBlocks true (fun _ => true) payload
      return (tx, n, bs)
    | _ => .err) = Res.ok ("s77", 5, [.followOn true 9 1 [1, 2, 3], .ack 4 2 [(1, 1)]]) := by decide +kernel

example : connId toyC [1] (xr (le 8 5) (toyC.ks [2] (iv1 (List.replicate 24 0)) 8) ++ List.replicate 24 0) ≠ 5 := by decide +kernel

end Emissary.Ssu2
