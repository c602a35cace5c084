import Verif.Props.Ssu2Packet
/-!
# C75, C79-C83: SSU2 handshake
-/
namespace Emissary.Ssu2
open Emissary Emissary.I2np Emissary.Ntcp2

/-- The primitives behave: lawful sealing and keystream, Diffie-Hellman commutes, public keys have 32 bytes. -/
structure Prims.Lawful (P : Prims) : Prop where
  crypto : P.toCrypto.Lawful
  dh : ∀ a b, P.dh a (P.pub b) = P.dh b (P.pub a)
  pub : ∀ a, (P.pub a).length = 32

theorem long_eq (dst n ty src : Nat) (tok : Bytes) :
    longHeader dst n ty src tok = le 8 dst ++ (half2 n ty 2 2 0 ++ (le 8 src ++ tok)) := by
  simp only [longHeader, half2, List.append_assoc]

/-- A `SessionRequest` or `SessionCreated` as its addressee reads it. -/
theorem finish_eq {C : Crypto} (hC : C.Lawful) (k1 k2 : Bytes) (dst n ty : Nat) (t p : Bytes) (ht : t.length = 48)
    (hp : 24 ≤ p.length) (hn : n < 2 ^ 32) :
    ∃ pkt, Handshake.finish C ⟨le 8 dst ++ (half2 n ty 2 2 0 ++ t), p⟩ k1 k2 = .ok pkt ∧
      unmasked C k1 pkt = le 8 dst ++ (xr (half2 n ty 2 2 0) (C.ks k2 (iv2 p) 8) ++ (xr t (C.ks k2 zeroIv 48) ++ p)) ∧
      (ty = 0 → reparse C k1 k2 (unmasked C k1 pkt) = .ok (.sessionRequest (t.drop 16) 2 n (unle (slice t 8 16)),
        le 8 dst ++ (half2 n ty 2 2 0 ++ (t ++ p)))) ∧
      (ty = 1 → reparse C k1 k2 (unmasked C k1 pkt) = .ok (.sessionCreated (t.drop 16) 2 n,
        le 8 dst ++ (half2 n ty 2 2 0 ++ (t ++ p)))) := by
  have e := obfuscate_eq hC k1 k2 (le 8 dst) (half2 n ty 2 2 0) t p (le_len ..) (half2_length ..) hp
  have hu := unmasked_eq hC k1 (le 8 dst) (xr (half2 n ty 2 2 0) (C.ks k2 (iv2 p) 8) ++ xr t (C.ks k2 zeroIv 48)) p (le_len ..) hp
  simp only [List.append_assoc] at hu
  refine ⟨xr (le 8 dst) (C.ks k1 (iv1 p) 8) ++ (xr (half2 n ty 2 2 0) (C.ks k2 (iv2 p) 8) ++ (xr t (C.ks k2 zeroIv 48) ++ p)),
    ?_, hu, ?_, ?_⟩
  · simp only [Handshake.finish, e, ok_bind]
    rw [maskTail_eq hC _ 48 _ _ _ (by rw [xr_length _ _ (by rw [le_len, hC.ks]), le_len])
      (by rw [xr_length _ _ (by rw [half2_length, hC.ks]), half2_length]) ht]
    simp [pure, List.append_assoc]
  all_goals
    intro ety
    subst ety
    rw [hu]
  · have := (parse_long hC k1 k2 (iv1 p) (iv2 p) (le 8 dst) t p n 0 2 (le_len ..) hn (by decide)).1 rfl ht
    refine reparse_eq (s := ⟨k1, iv1 p, iv2 p, le 8 dst ++ (half2 n 0 2 2 0 ++ (t ++ p))⟩) _ _ _ ?_ ?_
    · simp only [List.length_append, le_len]; omega
    · rw [iv1_3 _ _ _ _ hp, iv2_3 _ _ _ _ hp, this]
  · have := (parse_long hC k1 k2 (iv1 p) (iv2 p) (le 8 dst) t p n 1 2 (le_len ..) hn (by decide)).2.1 rfl ht
    refine reparse_eq (s := ⟨k1, iv1 p, iv2 p, le 8 dst ++ (half2 n 1 2 2 0 ++ (t ++ p))⟩) _ _ _ ?_ ?_
    · simp only [List.length_append, le_len]; omega
    · rw [iv1_3 _ _ _ _ hp, iv2_3 _ _ _ _ hp, this]

theorem confirmed_eq {C : Crypto} (hC : C.Lawful) (k1 k2 : Bytes) (dst : Nat) (ek p : Bytes) (hp : 24 ≤ p.length) :
    ∃ pkt, finishConfirmed C dst k1 k2 ek p = .ok pkt ∧
      reparse C k1 k2 (unmasked C k1 pkt) = .ok (.sessionConfirmed 0, confirmedHeader dst ++ (ek ++ p)) := by
  have hh : confirmedHeader dst = le 8 dst ++ (half2 0 2 1 0 0 ++ []) := by
    have : be 2 0 = be 1 0 ++ be 1 0 := by decide
    simp only [confirmedHeader, half2, List.append_assoc, this, List.append_nil]
  have e := obfuscate_eq hC k1 k2 (le 8 dst) (half2 0 2 1 0 0) [] p (le_len ..) (half2_length ..) hp
  have hu := unmasked_eq hC k1 (le 8 dst) (xr (half2 0 2 1 0 0) (C.ks k2 (iv2 p) 8) ++ ek) p (le_len ..) hp
  simp only [List.append_assoc] at hu
  refine ⟨xr (le 8 dst) (C.ks k1 (iv1 p) 8) ++ (xr (half2 0 2 1 0 0) (C.ks k2 (iv2 p) 8) ++ (ek ++ p)), ?_, ?_⟩
  · simp only [finishConfirmed, hh, e, ok_bind]
    simp [pure, List.append_assoc]
  · rw [hu]
    have := (parse_short hC k1 k2 (iv1 p) (iv2 p) (le 8 dst) (ek ++ p) 0 2 1 0 0 (le_len ..) (by decide) (by decide) (by decide)).1 rfl
    rw [reparse_eq (k := .sessionConfirmed 0) (s := ⟨k1, iv1 p, iv2 p, le 8 dst ++ (half2 0 2 1 0 0 ++ (ek ++ p))⟩)]
    · rw [hh]; simp only [List.append_nil, List.append_assoc]
    · simp only [List.length_append, le_len]; omega
    · rw [iv1_3 _ _ _ _ hp, iv2_3 _ _ _ _ hp, this]

/-! ## Specification of an undisturbed handshake -/

/-- A step that sends a packet. -/
def sends {α : Type} : α × Out → Res (α × Bytes)
  | (s, .send pkt) => .ok (s, pkt)
  | (_, .panic) => .panic
  | _ => .err

/-- A step that establishes the session. -/
def opens {α : Type} : α × Out → Res (Session × Option Bytes)
  | (_, .established s pkt) => .ok (s, pkt)
  | (_, .panic) => .panic
  | _ => .err

/-- The responder's socket receives a first packet. -/
def accept (P : Prims) (chk : Bool) (me : Self) (sessions : Nat → Option Unit) (from_ : SockAddr) (pkt : Bytes) (r : Rnd) :
    Res (Inbound × Bytes) :=
  match route P.toCrypto chk me.intro sessions none pkt with
  | .inbound dst src n pkt' => Inbound.new P chk from_ me.intro me.sk dst src n pkt' r
  | .panic => .panic
  | _ => .err

/-- Every packet arrives, once and in order. The sessions get packets with the first half of the header unmasked (C78). -/
def honest (P : Prims) (chk : Bool) (a b : Self) (addrA : SockAddr) (to : Remote) (sessions : Nat → Option Unit) (dst src : Nat)
    (r : Nat → Rnd) : Res (Session × Session × Option Bytes × Bytes × Bytes) := do
  let (o, tokenRequest) ← connect P a to dst src (r 0)
  let (i, retry) ← accept P chk b sessions addrA tokenRequest (r 1)
  let (o, request) ← sends (o.onPacket P chk (unmasked P.toCrypto to.intro retry) (r 2))
  let (i, created) ← sends (i.onPacket P chk (unmasked P.toCrypto b.intro request) (r 3))
  let (o, confirmed) ← sends (o.onPacket P chk (unmasked P.toCrypto to.intro created) (r 4))
  let (sb, first) ← opens (i.onPacket P chk (unmasked P.toCrypto b.intro confirmed) (r 5))
  match first with
  | none => .err
  | some pkt => do
    let (sa, _) ← opens (o.onPacket P chk (unmasked P.toCrypto a.intro pkt) (r 6))
    return (sa, sb, first, created, confirmed)

/-- Specification of the keys: HKDF with a label and 64 bytes of output, the chaining key after a list of Diffie-Hellman results, the header key
of a handshake message and the keys of the data phase, initiator to responder first. -/
def hkdf64 (P : Prims) (k ikm label : Bytes) : Bytes × Bytes :=
  (P.hmac (P.hmac k ikm) (label ++ [1]), P.hmac (P.hmac k ikm) (P.hmac (P.hmac k ikm) (label ++ [1]) ++ label ++ [2]))

def chain (P : Prims) (secrets : List Bytes) : Bytes :=
  secrets.foldl (fun ck s => (hkdf64 P ck s []).1) (P.sha "Noise_XKchaobfse+hs1+hs2+hs3_25519_ChaChaPoly_SHA256".toUTF8.toList)

def specHeaderKey (P : Prims) (secrets : List Bytes) (label : String) : Bytes := (hkdf64 P (chain P secrets) [] label.toUTF8.toList).1

def specDataKeys (P : Prims) (secrets : List Bytes) : KeyCtx × KeyCtx :=
  let k := hkdf64 P (chain P secrets) [] []
  let ab := hkdf64 P k.1 [] "HKDFSSU2DataKeys".toUTF8.toList
  let ba := hkdf64 P k.2 [] "HKDFSSU2DataKeys".toUTF8.toList
  (⟨ab.1, ab.2⟩, ⟨ba.1, ba.2⟩)

theorem dataKeys_spec (P : Prims) (secrets : List Bytes) : dataKeys P (chain P secrets) = specDataKeys P secrets := by
  simp only [dataKeys, specDataKeys, directionKeys, hkdf64, lblData, List.append_nil, List.nil_append]

/-- Values fit their fields. -/
def Rnd.Ok (r : Rnd) : Prop := r.pktNum < 2 ^ 32 ∧ r.now < 2 ^ 32 ∧ r.padding.length < 65536 ∧ r.token < 2 ^ 64

def SockAddr.Ok : SockAddr → Prop
  | .v4 ip _ => ip.length = 4
  | .v6 ip _ => ip.length = 16

theorem timePadding_parse (chk : Bool) (valid : Bytes → Bool) (now : Nat) (padding : Bytes) (h1 : now < 2 ^ 32)
    (h2 : padding.length < 65536) : parseBlocks chk valid (timePadding now padding) = .ok [.dateTime now, .padding padding] := by
  have := C38_blocks_roundtrip chk valid [.dateTime now, .padding padding] (by simp) (by
    intro b hb
    simp only [List.mem_cons, List.not_mem_nil, or_false] at hb
    rcases hb with rfl | rfl
    · exact h1
    · exact h2)
  simpa [Block.wire, Block.seen, timePadding] using this

theorem timePadding_len (now : Nat) (padding : Bytes) : 10 ≤ (timePadding now padding).length := by
  simp only [timePadding, List.length_append, be_length]; omega

theorem timeAddressPadding_len (now : Nat) (a : SockAddr) (padding : Bytes) : 10 ≤ (timeAddressPadding now a padding).length := by
  simp only [timeAddressPadding, List.length_append, be_length]; omega

theorem confirmed_parse (P : Prims) (chk : Bool) (info : Bytes) (h1 : info.length < 65534) (h2 : (P.info info).isSome) :
    parseBlocks chk (fun b => (P.info b).isSome) (confirmedPayload info) = .ok [.routerInfo info] := by
  have := C38_blocks_roundtrip chk (fun b => (P.info b).isSome) [.routerInfo info] (by simp) (by
    intro b hb
    simp only [List.mem_cons, List.not_mem_nil, or_false] at hb
    subst hb
    exact ⟨h1, h2⟩)
  simpa [Block.wire, Block.seen, confirmedPayload] using this

theorem tokenRequest_eq {C : Crypto} (hC : C.Lawful) (intro : Bytes) (dst src n now : Nat) (padding : Bytes) (hn : n < 2 ^ 32)
    (hd : dst < 2 ^ 64) (hs : src < 2 ^ 64) :
    ∃ pkt, buildTokenRequest C intro dst src n now padding = .ok pkt ∧
      ∀ (chk : Bool) (sessions : Nat → Option Unit) (pending : Option Bytes), sessions dst = none →
        route C chk intro sessions pending pkt = .inbound dst src n (longHeader dst n 10 src (be 8 0) ++
          C.seal intro n (longHeader dst n 10 src (be 8 0)) (timePadding now padding)) := by
  generalize hpe : C.seal intro n (longHeader dst n 10 src (be 8 0)) (timePadding now padding) = p
  have hp : 24 ≤ p.length := by rw [← hpe, seal_len hC]; have := timePadding_len now padding; omega
  have ht : (le 8 src ++ be 8 0).length = 16 := by simp [le_len]
  have e := obfuscate_eq hC intro intro (le 8 dst) (half2 n 10 2 2 0) (le 8 src ++ be 8 0) p (le_len ..) (half2_length ..) hp
  refine ⟨xr (le 8 dst) (C.ks intro (iv1 p) 8) ++ (xr (half2 n 10 2 2 0) (C.ks intro (iv2 p) 8) ++
    (xr (le 8 src ++ be 8 0) (C.ks intro zeroIv 16) ++ p)), ?_, ?_⟩
  · simp only [buildTokenRequest]
    rw [hpe, long_eq, e, ok_bind, maskTail_eq hC _ 16 _ _ _ (by rw [xr_length _ _ (by rw [le_len, hC.ks]), le_len])
      (by rw [xr_length _ _ (by rw [half2_length, hC.ks]), half2_length]) ht]
    simp [pure, List.append_assoc]
  · intro chk sessions pending hfree
    rw [route, new_eq _ _ (by simp only [List.length_append]; omega)]
    simp only [iv1_3 _ _ _ _ hp, iv2_3 _ _ _ _ hp]
    rw [dstId_eq hC _ _ _ _ _ (le_len ..), unle_le8 _ hd]
    simp only [hfree]
    have := (parse_long hC intro intro (iv1 p) (iv2 p) (le 8 dst) (le 8 src ++ be 8 0) p n 10 2 (le_len ..) hn
      (by decide)).2.2.2 rfl ht
    rw [this]
    simp only [List.take_left' (le_len 8 src), unle_le8 _ hs, long_eq, List.append_assoc]

/-! ## The steps -/

theorem mixKey_mixHash (P : Prims) (n : Noise) (x a b : Bytes) :
    (n.mixHash P x).mixKey P a b = ((n.mixKey P a b).1, (n.mixKey P a b).2.mixHash P x) := rfl

theorem mixKey_comm {P : Prims} (hP : P.Lawful) (n : Noise) (a b : Bytes) : n.mixKey P a (P.pub b) = n.mixKey P b (P.pub a) := by
  simp only [Noise.mixKey, hP.dh a b]

theorem longHeader_len (dst n ty src : Nat) (tok : Bytes) (h : tok.length = 8) : (longHeader dst n ty src tok).length = 32 := by
  simp only [longHeader, List.length_append, le_len, be_length, h]

theorem cut (a b c : Bytes) (ha : a.length = 32) (hb : b.length = 32) :
    (a ++ (b ++ c)).take 32 = a ∧ slice (a ++ (b ++ c)) 32 64 = b ∧ (a ++ (b ++ c)).drop 64 = c := by
  refine ⟨List.take_left' ha, slice_mid _ _ _ _ _ ha (by omega), ?_⟩
  rw [← List.append_assoc, List.drop_left' (by simp [ha, hb])]

theorem onRetry_eq {P : Prims} (hP : P.Lawful) (s : Outbound) (pkt : Bytes) (r : Rnd) (hr : r.Ok) {net n tok : Nat} {pkt' pl : Bytes}
    (h1 : reparse P.toCrypto s.introKey s.introKey pkt = .ok (.retry net n tok, pkt'))
    (h2 : P.unseal s.introKey n (pkt'.take 32) (pkt'.drop 32) = some pl) :
    let K := s.noise.mixKey P r.esk s.remoteStatic
    let hdr := longHeader s.dstId r.pktNum 0 s.srcId (le 8 tok)
    let n2 := (K.2.mixHash P hdr).mixHash P (P.pub r.esk)
    let ct := P.seal K.1 0 n2.state (timePadding r.now r.padding)
    ∃ out, s.onRetry P pkt r = ({ s with noise := n2.mixHash P ct, state := .awaitingCreated r.esk, retransmit := some out }, .send out) ∧
      reparse P.toCrypto s.introKey s.introKey (unmasked P.toCrypto s.introKey out) =
        .ok (.sessionRequest (P.pub r.esk) 2 r.pktNum (unle (le 8 tok)), hdr ++ (P.pub r.esk ++ ct)) := by
  intro K hdr n2 ct
  have hl : hdr.length = 32 := longHeader_len _ _ _ _ _ (le_len ..)
  have hh : hdr ++ P.pub r.esk = le 8 s.dstId ++ (half2 r.pktNum 0 2 2 0 ++ ((le 8 s.srcId ++ le 8 tok) ++ P.pub r.esk)) := by
    simp only [hdr, long_eq, List.append_assoc]
  have hp : 24 ≤ ct.length := by
    simp only [ct, seal_len hP.crypto]; have := timePadding_len r.now r.padding; omega
  obtain ⟨out, e1, _, e2, _⟩ := finish_eq hP.crypto s.introKey s.introKey s.dstId r.pktNum 0 ((le 8 s.srcId ++ le 8 tok) ++ P.pub r.esk) ct
    (by simp [le_len, hP.pub]) hp hr.1
  refine ⟨out, ?_, ?_⟩
  · simp only [Outbound.onRetry, h1, h2, sessionRequest, Handshake.encPayload]
    have : (longHeader s.dstId r.pktNum 0 s.srcId (le 8 tok) ++ P.pub r.esk).take 32 = hdr := List.take_left' hl
    rw [this]
    change (match Handshake.finish P.toCrypto ⟨hdr ++ P.pub r.esk, ct⟩ s.introKey s.introKey with
      | .panic => _ | .err => _ | .ok out => _) = _
    rw [hh, e1]
  · rw [e2 rfl, List.drop_left' (by simp [le_len]), List.append_assoc, slice_mid _ _ _ _ _ (le_len ..) (by simp [le_len])]
    congr 2

theorem onRequest_eq {P : Prims} (hP : P.Lawful) (chk : Bool) (s : Inbound) (pkt : Bytes) (r : Rnd) (hr : r.Ok) {net n tok : Nat}
    {hdr epk ct pl : Bytes} {bs : List Block}
    (h1 : reparse P.toCrypto s.introKey s.introKey pkt = .ok (.sessionRequest epk net n tok, hdr ++ (epk ++ ct)))
    (l1 : hdr.length = 32) (l2 : epk.length = 32)
    (h2 : let K := s.noise.mixKey P s.staticSk epk
      P.unseal K.1 0 ((K.2.mixHash P hdr).mixHash P epk).state ct = some pl)
    (h3 : handshakeBlocks P chk pl = .ok bs) :
    let K := s.noise.mixKey P s.staticSk epk
    let n3 := ((K.2.mixHash P hdr).mixHash P epk).mixHash P ct
    let K2 := n3.mixKey P r.esk epk
    let hdr2 := longHeader s.srcId r.pktNum 1 s.dstId (be 8 0)
    let n4 := (K2.2.mixHash P hdr2).mixHash P (P.pub r.esk)
    let ct2 := P.seal K2.1 0 n4.state (timeAddressPadding r.now s.address r.padding)
    ∃ out, s.onRequest P chk pkt r =
        ({ s with noise := n4.mixHash P ct2, state := .awaitingConfirmed r.esk (headerKey P n4.ck lblConfirmed) K2.1,
                  retransmit := some out }, .send out) ∧
      reparse P.toCrypto s.introKey (headerKey P n3.ck lblCreate) (unmasked P.toCrypto s.introKey out) =
        .ok (.sessionCreated (P.pub r.esk) 2 r.pktNum, hdr2 ++ (P.pub r.esk ++ ct2)) := by
  intro K n3 K2 hdr2 n4 ct2
  obtain ⟨c1, c2, c3⟩ := cut hdr epk ct l1 l2
  have hl : hdr2.length = 32 := longHeader_len _ _ _ _ _ (by simp)
  have hh : hdr2 ++ P.pub r.esk = le 8 s.srcId ++ (half2 r.pktNum 1 2 2 0 ++ ((le 8 s.dstId ++ be 8 0) ++ P.pub r.esk)) := by
    simp only [hdr2, long_eq, List.append_assoc]
  have hp : 24 ≤ ct2.length := by
    simp only [ct2, seal_len hP.crypto]; have := timeAddressPadding_len r.now s.address r.padding; omega
  obtain ⟨out, e1, _, _, e2⟩ := finish_eq hP.crypto s.introKey (headerKey P n3.ck lblCreate) s.srcId r.pktNum 1
    ((le 8 s.dstId ++ be 8 0) ++ P.pub r.esk) ct2 (by simp [le_len, hP.pub]) hp hr.1
  refine ⟨out, ?_, ?_⟩
  · simp only [Inbound.onRequest, h1, c1, c2, c3, mixKey_mixHash]
    simp only at h2
    simp only [h2, h3, sessionCreated, Handshake.encPayload]
    have : (longHeader s.srcId r.pktNum 1 s.dstId (be 8 0) ++ P.pub r.esk).take 32 = hdr2 := List.take_left' hl
    rw [this]
    change (match Handshake.finish P.toCrypto ⟨hdr2 ++ P.pub r.esk, ct2⟩ s.introKey (headerKey P n3.ck lblCreate) with
      | .panic => _ | .err => _ | .ok out => _) = _
    rw [hh, e1]
    rfl
  · rw [e2 rfl, List.drop_left' (by simp [le_len])]
    congr 2

theorem onCreated_eq {P : Prims} (hP : P.Lawful) (s : Outbound) (esk pkt : Bytes) {net n : Nat} {hdr2 epk ct2 pl : Bytes}
    (h1 : reparse P.toCrypto s.introKey (headerKey P s.noise.ck lblCreate) pkt = .ok (.sessionCreated epk net n, hdr2 ++ (epk ++ ct2)))
    (l1 : hdr2.length = 32) (l2 : epk.length = 32) (l3 : 3 ≤ s.localInfo.length)
    (h2 : let K2 := s.noise.mixKey P esk epk
      P.unseal K2.1 0 ((K2.2.mixHash P hdr2).mixHash P epk).state ct2 = some pl) :
    let K2 := s.noise.mixKey P esk epk
    let n5 := ((K2.2.mixHash P hdr2).mixHash P epk).mixHash P ct2
    let n6 := n5.mixHash P (confirmedHeader s.dstId)
    let ek := P.seal K2.1 1 n6.state (P.pub s.localSk)
    let K3 := (n6.mixHash P ek).mixKey P s.localSk epk
    let ep := P.seal K3.1 0 K3.2.state (confirmedPayload s.localInfo)
    ∃ out, s.onCreated P esk pkt = ({ s with noise := K3.2, state := .awaitingAck, retransmit := some out }, .send out) ∧
      reparse P.toCrypto s.introKey (headerKey P n5.ck lblConfirmed) (unmasked P.toCrypto s.introKey out) =
        .ok (.sessionConfirmed 0, confirmedHeader s.dstId ++ (ek ++ ep)) := by
  intro K2 n5 n6 ek K3 ep
  obtain ⟨c1, c2, c3⟩ := cut hdr2 epk ct2 l1 l2
  have hp : 24 ≤ ep.length := by
    simp only [ep, seal_len hP.crypto, confirmedPayload, List.length_append, be_length]; omega
  obtain ⟨out, e1, e2⟩ := confirmed_eq hP.crypto s.introKey (headerKey P n5.ck lblConfirmed) s.dstId ek ep hp
  refine ⟨out, ?_, e2⟩
  simp only [Outbound.onCreated, h1, c1, c2, c3, mixKey_mixHash]
  simp only at h2
  simp only [h2]
  change (match finishConfirmed P.toCrypto s.dstId s.introKey (headerKey P n5.ck lblConfirmed) ek ep with
    | .panic => _ | .err => _ | .ok out => _) = _
  rw [e1]
  rfl

theorem onConfirmed_eq {P : Prims} (hP : P.Lawful) (chk : Bool) (s : Inbound) (esk kh kc pkt : Bytes) {hdr ek ep static pl info : Bytes}
    {id : Nat} {intro : Bytes} {bs : List Block}
    (h1 : reparse P.toCrypto s.introKey kh pkt = .ok (.sessionConfirmed 0, hdr ++ (ek ++ ep)))
    (l1 : hdr.length = 16) (l2 : ek.length = 48)
    (h2 : P.unseal kc 1 (s.noise.mixHash P hdr).state ek = some static)
    (h3 : let K3 := ((s.noise.mixHash P hdr).mixHash P ek).mixKey P esk static
      P.unseal K3.1 0 K3.2.state ep = some pl)
    (h4 : handshakeBlocks P chk pl = .ok bs) (h5 : routerInfoOf bs = some info) (h6 : P.info info = some (id, some intro)) :
    let K3 := ((s.noise.mixHash P hdr).mixHash P ek).mixKey P esk static
    let D := dataKeys P K3.2.ck
    ∃ ack s', buildData P.toCrypto intro D.2 s.srcId 0 .none (some (0, 0, none)) none = .ok ack ∧
      s.onConfirmed P chk esk kh kc pkt = (s', .established ⟨s.address, s.srcId, intro, D.1, D.2, id⟩ (some ack)) := by
  intro K3 D
  have c1 : (hdr ++ (ek ++ ep)).take 16 = hdr := List.take_left' l1
  have c2 : slice (hdr ++ (ek ++ ep)) 16 64 = ek := slice_mid _ _ _ _ _ l1 (by omega)
  have c3 : (hdr ++ (ek ++ ep)).drop 64 = ep := by rw [← List.append_assoc, List.drop_left' (by simp [l1, l2])]
  have hd := buildData_eq hP.crypto intro D.2 s.srcId 0 .none (some (0, 0, none)) none (by simp [Body.bytes, ackBytes])
  refine ⟨_, { s with state := .poisoned, noise := K3.2 }, hd, ?_⟩
  simp only at h3
  simp only [Inbound.onConfirmed, h1, ne_eq, not_true_eq_false, if_false]
  rw [if_neg (by simp only [List.length_append]; omega)]
  simp only [c1, c2, c3, h2]
  simp only [h3, h4, h5, Option.bind_some, h6]
  change (match buildData P.toCrypto intro D.2 s.srcId 0 .none (some (0, 0, none)) none with
    | .ok ack => _ | .err => _ | .panic => _) = _
  rw [hd]

theorem blocks_ok {P : Prims} {chk : Bool} {pl : Bytes} {bs : List Block}
    (h : parseBlocks chk (fun b => (P.info b).isSome) pl = .ok bs) : handshakeBlocks P chk pl = .ok bs := by
  rw [handshakeBlocks, h]

/-! ## Agreement -/

theorem handshake_runs {P : Prims} (hP : P.Lawful) (chk : Bool) (a b : Self) (addrA addrB : SockAddr) (idB : Nat)
    (sessions : Nat → Option Unit) (dst src : Nat) (hd : dst < 2 ^ 64) (hs : src < 2 ^ 64) (hfree : sessions dst = none)
    (r : Nat → Rnd) (hr : ∀ k, (r k).Ok) (hi1 : 3 ≤ a.info.length) (hi2 : a.info.length < 65534)
    (hinfo : P.info a.info = some (a.id, some a.intro)) :
    ∃ sa sb pkt created confirmed, honest P chk a b addrA ⟨P.pub b.sk, b.intro, addrB, idB⟩ sessions dst src r =
        .ok (sa, sb, some pkt, created, confirmed) ∧
      sa.send = sb.recv ∧ sa.recv = sb.send ∧
      (let es := P.dh (r 2).esk (P.pub b.sk)
       let ee := P.dh (r 2).esk (P.pub (r 3).esk)
       let se := P.dh a.sk (P.pub (r 3).esk)
       (sa.send, sa.recv) = specDataKeys P [es, ee, se] ∧
       (∃ body, reparse P.toCrypto b.intro (specHeaderKey P [es] "SessCreateHeader") (unmasked P.toCrypto b.intro created) =
         .ok (.sessionCreated (P.pub (r 3).esk) 2 (r 3).pktNum, body)) ∧
       (∃ body, reparse P.toCrypto b.intro (specHeaderKey P [es, ee] "SessionConfirmed") (unmasked P.toCrypto b.intro confirmed) =
         .ok (.sessionConfirmed 0, body))) ∧
      (sa.dstId = dst ∧ sa.address = addrB ∧ sa.introKey = b.intro ∧ sa.routerId = a.id) ∧
      (sb.dstId = src ∧ sb.address = addrA ∧ sb.introKey = a.intro ∧ sb.routerId = a.id) ∧
      ∀ (σ : Type) (tab : Nat → Option σ) (tx : σ) (pending : Option Bytes), tab src = some tx →
        ∃ pkt', route P.toCrypto chk a.intro tab pending pkt = .deliver tx pkt' ∧
          openData P.toCrypto sa.recv pkt' = .ok (0, ackBytes (some (0, 0, none))) := by
  obtain ⟨p0, e0, a0⟩ := tokenRequest_eq hP.crypto b.intro dst src (r 0).pktNum (r 0).now (r 0).padding (hr 0).1 hd hs
  -- `connect`
  obtain ⟨o0, c0⟩ : ∃ o0 : Outbound, o0 = ⟨addrB, dst, src, b.intro, P.pub b.sk, a.sk, a.info, a.id,
      ⟨P.sha lblProtocol, P.sha (P.sha (P.sha lblProtocol) ++ P.pub b.sk)⟩, .awaitingRetry, some p0⟩ := ⟨_, rfl⟩
  have s0 : connect P a ⟨P.pub b.sk, b.intro, addrB, idB⟩ dst src (r 0) = .ok (o0, p0) := by
    simp only [connect, Outbound.new, e0, ok_bind, c0]; rfl
  -- the responder
  obtain ⟨p1, e1, q1⟩ := retry_read hP.crypto b.intro src dst (r 1).token (r 1).pktNum (r 1).now addrA (r 1).padding (hr 1).1
  obtain ⟨i0, c1⟩ : ∃ i0 : Inbound, i0 = ⟨addrA, dst, src, b.intro, b.sk,
      ⟨P.sha lblProtocol, P.sha (P.sha (P.sha lblProtocol) ++ P.pub b.sk)⟩, .awaitingRequest (r 1).token, none⟩ := ⟨_, rfl⟩
  have s1 : accept P chk b sessions addrA p0 (r 1) = .ok (i0, p1) := by
    rw [accept, a0 chk sessions none hfree]
    simp only [Inbound.new]
    have hl : (longHeader dst (r 0).pktNum 10 src (be 8 0)).length = 32 := longHeader_len _ _ _ _ _ (by simp)
    rw [List.take_left' hl, List.drop_left' hl, unseal_seal hP.crypto]
    simp only [blocks_ok (timePadding_parse chk _ (r 0).now (r 0).padding (hr 0).2.1 (hr 0).2.2.1), ok_bind, e1, c1]
    rfl
  -- the initiator gets the retry
  have hl9 : (longHeader src (r 1).pktNum 9 dst (be 8 (r 1).token)).length = 32 := longHeader_len _ _ _ _ _ (by simp)
  obtain ⟨p2, s2, q2⟩ := onRetry_eq hP o0 (unmasked P.toCrypto b.intro p1) (r 2) (hr 2) (pl := timeAddressPadding (r 1).now addrA (r 1).padding)
    (by rw [c0]; exact q1) (by rw [c0, List.take_left' hl9, List.drop_left' hl9]; exact unseal_seal hP.crypto ..)
  have t2 : o0.onPacket P chk (unmasked P.toCrypto b.intro p1) (r 2) = _ := (show o0.onPacket P chk _ (r 2) = o0.onRetry P _ (r 2) by
    rw [c0]; rfl).trans s2
  -- the responder gets the request
  have f1 : o0.introKey = i0.introKey := by rw [c0, c1]
  have f2 : o0.noise = i0.noise := by rw [c0, c1]
  have f3 : o0.remoteStatic = P.pub i0.staticSk := by rw [c0, c1]
  have fi : i0.introKey = b.intro := by rw [c1]
  simp only [f1, f2, f3, mixKey_comm hP i0.noise (r 2).esk i0.staticSk] at q2 t2
  obtain ⟨p3, s3, q3⟩ := onRequest_eq hP chk i0 (unmasked P.toCrypto b.intro p2) (r 3) (hr 3) (by rw [← fi]; exact q2)
    (longHeader_len _ _ _ _ _ (le_len ..)) (hP.pub _) (unseal_seal hP.crypto ..)
    (blocks_ok (timePadding_parse chk _ (r 2).now (r 2).padding (hr 2).2.1 (hr 2).2.2.1))
  have t3 : i0.onPacket P chk (unmasked P.toCrypto b.intro p2) (r 3) = _ := (show i0.onPacket P chk _ (r 3) = i0.onRequest P chk _ (r 3) by
    rw [c1]; rfl).trans s3
  -- name the noise state both have after the request
  generalize hK : i0.noise.mixKey P i0.staticSk (P.pub (r 2).esk) = K at t2 t3 q3 s3
  generalize hc1 : P.seal K.1 0 _ (timePadding (r 2).now (r 2).padding) = ct at t2 t3 q3 s3
  generalize hn3 : Noise.mixHash P (Noise.mixHash P (Noise.mixHash P K.2 _) (P.pub (r 2).esk)) ct = n3 at t2 t3 q3 s3
  -- the initiator gets `SessionCreated`
  simp only [← mixKey_comm hP n3 (r 2).esk (r 3).esk] at t3 q3
  generalize ho1 : ({ o0 with introKey := i0.introKey, remoteStatic := P.pub i0.staticSk, noise := n3, state := .awaitingCreated (r 2).esk, retransmit := some p2 } : Outbound) = o1 at t2
  have g1 : o1.introKey = i0.introKey := by rw [← ho1]
  have g2 : o1.noise = n3 := by rw [← ho1]
  have g3 : o1.dstId = dst ∧ o1.localSk = a.sk ∧ o1.localInfo = a.info ∧ o1.address = addrB ∧ o1.routerId = a.id := by
    rw [← ho1, c0]; exact ⟨rfl, rfl, rfl, rfl, rfl⟩
  obtain ⟨p4, s4, q4⟩ := onCreated_eq hP o1 (r 2).esk (unmasked P.toCrypto b.intro p3) (by rw [g1, g2, ← fi]; exact q3)
    (longHeader_len _ _ _ _ _ (by simp)) (hP.pub _) (by rw [g3.2.2.1]; exact hi1) (by rw [g2]; exact unseal_seal hP.crypto ..)
  have t4 : o1.onPacket P chk (unmasked P.toCrypto b.intro p3) (r 4) = _ :=
    (show o1.onPacket P chk _ (r 4) = o1.onCreated P (r 2).esk _ by rw [← ho1]; rfl).trans s4
  rw [g1] at q4
  simp only [g2] at q4 t4
  -- the responder gets `SessionConfirmed`
  generalize hK2 : n3.mixKey P (r 2).esk (P.pub (r 3).esk) = K2 at t3 q4 t4 q3
  generalize hc2 : P.seal K2.1 0 _ (timeAddressPadding (r 3).now i0.address (r 3).padding) = ct2 at t3 q4 t4
  generalize hn4 : Noise.mixHash P (Noise.mixHash P K2.2 _) (P.pub (r 3).esk) = n4 at t3 q4 t4
  generalize hi1' : ({ i0 with noise := n4.mixHash P ct2, state := .awaitingConfirmed (r 3).esk (headerKey P n4.ck lblConfirmed) K2.1, retransmit := some p3 } : Inbound) = i1 at t3
  have g4 : i1.introKey = i0.introKey ∧ i1.noise = n4.mixHash P ct2 ∧ i1.srcId = src ∧ i1.address = addrA := by
    rw [← hi1', c1]; exact ⟨rfl, rfl, rfl, rfl⟩
  obtain ⟨p5, i2, b5, s5⟩ := onConfirmed_eq hP chk i1 (r 3).esk (headerKey P n4.ck lblConfirmed) K2.1 (unmasked P.toCrypto b.intro p4)
    (static := P.pub a.sk) (pl := confirmedPayload a.info) (bs := [.routerInfo a.info]) (info := a.info) (id := a.id) (intro := a.intro)
    (by rw [g4.1, ← fi]; exact q4) (by simp [confirmedHeader, le_len]) (by rw [seal_len hP.crypto, hP.pub])
    (by rw [g4.2.1, g3.1, g3.2.1]; exact unseal_seal hP.crypto ..)
    (by
      rw [g4.2.1, g3.1, g3.2.1, g3.2.2.1]
      simp only [mixKey_comm hP _ a.sk (r 3).esk]
      exact unseal_seal hP.crypto ..)
    (blocks_ok (confirmed_parse P chk a.info hi2 (by rw [hinfo]; rfl))) rfl hinfo
  have t5 : i1.onPacket P chk (unmasked P.toCrypto b.intro p4) (r 5) = _ :=
    (show i1.onPacket P chk _ (r 5) = i1.onConfirmed P chk (r 3).esk (headerKey P n4.ck lblConfirmed) K2.1 _ by rw [← hi1']; rfl).trans s5
  rw [g4.2.2.1] at b5
  rw [g4.2.1, g4.2.2.1, g4.2.2.2, g3.1, g3.2.1] at t5
  rw [g4.2.1, g3.1, g3.2.1] at b5
  simp only [g3.1, g3.2.1, mixKey_comm hP _ a.sk (r 3).esk] at t4
  generalize hek : P.seal K2.1 1 _ (P.pub a.sk) = ek at t4 t5 b5
  generalize hK3 : Noise.mixKey P _ (r 3).esk (P.pub a.sk) = K3 at t4 t5 b5
  generalize ho2 : ({ o1 with dstId := dst, localSk := a.sk, noise := K3.2, state := .awaitingAck, retransmit := some p4 } : Outbound) = o2 at t4
  have g5 : o2.address = addrB ∧ o2.dstId = dst ∧ o2.introKey = b.intro ∧ o2.noise = K3.2 ∧ o2.routerId = a.id := by
    rw [← ho2]; exact ⟨g3.2.2.2.1, rfl, g1.trans fi, rfl, g3.2.2.2.2⟩
  have t6 : o2.onPacket P chk (unmasked P.toCrypto a.intro p5) (r 6) = ({ o2 with state := .poisoned },
      .established ⟨addrB, dst, b.intro, (dataKeys P K3.2.ck).2, (dataKeys P K3.2.ck).1, a.id⟩ none) := by
    rw [show o2.onPacket P chk (unmasked P.toCrypto a.intro p5) (r 6) = o2.onData P (unmasked P.toCrypto a.intro p5) by rw [← ho2]; rfl]
    simp only [Outbound.onData, g5]
  refine ⟨⟨addrB, dst, b.intro, (dataKeys P K3.2.ck).2, (dataKeys P K3.2.ck).1, a.id⟩,
    ⟨addrA, src, a.intro, (dataKeys P K3.2.ck).1, (dataKeys P K3.2.ck).2, a.id⟩, p5, p3, p4, ?_, ?_, ?_, ?_, ?_, ?_, ?_⟩
  · simp only [honest, s0, s1, ok_bind]
    rw [t2]
    simp only [sends, ok_bind]
    rw [t3]
    simp only [ok_bind]
    rw [t4]
    simp only [ok_bind]
    rw [t5]
    simp only [opens, ok_bind]
    rw [t6]
    rfl
  · rfl
  · rfl
  · have k1 : n3.ck = chain P [P.dh (r 2).esk (P.pub b.sk)] := by
      rw [← hn3, ← hK, c1, hP.dh (r 2).esk b.sk]; rfl
    have k2 : n4.ck = chain P [P.dh (r 2).esk (P.pub b.sk), P.dh (r 2).esk (P.pub (r 3).esk)] := by
      rw [← hn4, ← hK2]
      change P.hmac (P.hmac n3.ck _) [1] = _
      rw [k1]; rfl
    have k3 : K3.2.ck = chain P [P.dh (r 2).esk (P.pub b.sk), P.dh (r 2).esk (P.pub (r 3).esk), P.dh a.sk (P.pub (r 3).esk)] := by
      rw [← hK3, hP.dh a.sk (r 3).esk]
      change P.hmac (P.hmac n4.ck _) [1] = _
      rw [k2]; rfl
    refine ⟨?_, ?_, ?_⟩
    · rw [k3, dataKeys_spec]
    · rw [fi, k1] at q3
      exact ⟨_, q3⟩
    · have hk : (n4.mixHash P ct2).ck = n4.ck := rfl
      rw [fi, hk, k2] at q4
      exact ⟨_, q4⟩
  · exact ⟨rfl, rfl, rfl, rfl⟩
  · exact ⟨rfl, rfl, rfl, rfl⟩
  · intro σ tab tx pending htab
    obtain ⟨pkt, h1, h2⟩ := C74_data_packet_delivered (σ := σ) hP.crypto a.intro (dataKeys P K3.2.ck).2 src 0 hs (by decide) .none
      (some (0, 0, none)) none (by simp [Body.bytes, ackBytes])
    rw [b5] at h1
    injection h1 with h1
    subst h1
    simpa [Body.bytes] using h2 chk tab pending tx htab

/-- C75: if every packet arrives, dialling a router ends in a session at both ends. What one side sends with is what the other
receives with, in both directions; each addresses the other by the connection id it chose, at the address it is reached at; the
responder knows the initiator under the router id and intro key of the router info the initiator sent; and the responder's first
packet is handed to the initiator's session and opens there. This holds in every build, whatever the random values. -/
theorem C75_handshake_agreement {P : Prims} (hP : P.Lawful) (chk : Bool) (a b : Self) (addrA addrB : SockAddr) (idB : Nat)
    (sessions : Nat → Option Unit) (dst src : Nat) (hd : dst < 2 ^ 64) (hs : src < 2 ^ 64) (hfree : sessions dst = none)
    (r : Nat → Rnd) (hr : ∀ k, (r k).Ok) (hi1 : 3 ≤ a.info.length) (hi2 : a.info.length < 65534)
    (hinfo : P.info a.info = some (a.id, some a.intro)) :
    ∃ sa sb pkt created confirmed, honest P chk a b addrA ⟨P.pub b.sk, b.intro, addrB, idB⟩ sessions dst src r =
        .ok (sa, sb, some pkt, created, confirmed) ∧
      sa.send = sb.recv ∧ sa.recv = sb.send ∧
      (sa.dstId = dst ∧ sa.address = addrB ∧ sa.introKey = b.intro) ∧
      (sb.dstId = src ∧ sb.address = addrA ∧ sb.introKey = a.intro ∧ sb.routerId = a.id) ∧
      ∀ (σ : Type) (tab : Nat → Option σ) (tx : σ) (pending : Option Bytes), tab src = some tx →
        ∃ pkt', route P.toCrypto chk a.intro tab pending pkt = .deliver tx pkt' ∧
          openData P.toCrypto sa.recv pkt' = .ok (0, ackBytes (some (0, 0, none))) := by
  obtain ⟨sa, sb, pkt, p, q, h1, h2, h3, _, ⟨h4, h5, h6, _⟩, h7⟩ :=
    handshake_runs hP chk a b addrA addrB idB sessions dst src hd hs hfree r hr hi1 hi2 hinfo
  exact ⟨sa, sb, pkt, p, q, h1, h2, h3, ⟨h4, h5, h6⟩, h7⟩

/-- C75: the keys are those of the specification: the data keys come from the three Diffie-Hellman results (`es`, `ee`, `se`), in this order,
and the headers of `SessionCreated` and `SessionConfirmed` are read with the keys labelled `SessCreateHeader` (after `es`)
and `SessionConfirmed` (after `es` and `ee`). -/
theorem C75_keys_per_specification {P : Prims} (hP : P.Lawful) (chk : Bool) (a b : Self) (addrA addrB : SockAddr) (idB : Nat)
    (sessions : Nat → Option Unit) (dst src : Nat) (hd : dst < 2 ^ 64) (hs : src < 2 ^ 64) (hfree : sessions dst = none)
    (r : Nat → Rnd) (hr : ∀ k, (r k).Ok) (hi1 : 3 ≤ a.info.length) (hi2 : a.info.length < 65534)
    (hinfo : P.info a.info = some (a.id, some a.intro)) :
    ∃ sa sb pkt created confirmed, honest P chk a b addrA ⟨P.pub b.sk, b.intro, addrB, idB⟩ sessions dst src r =
        .ok (sa, sb, some pkt, created, confirmed) ∧
      let es := P.dh (r 2).esk (P.pub b.sk)
      let ee := P.dh (r 2).esk (P.pub (r 3).esk)
      let se := P.dh a.sk (P.pub (r 3).esk)
      (sa.send, sa.recv) = specDataKeys P [es, ee, se] ∧
      (∃ body, reparse P.toCrypto b.intro (specHeaderKey P [es] "SessCreateHeader") (unmasked P.toCrypto b.intro created) =
        .ok (.sessionCreated (P.pub (r 3).esk) 2 (r 3).pktNum, body)) ∧
      (∃ body, reparse P.toCrypto b.intro (specHeaderKey P [es, ee] "SessionConfirmed") (unmasked P.toCrypto b.intro confirmed) =
        .ok (.sessionConfirmed 0, body)) := by
  obtain ⟨sa, sb, pkt, p, q, h1, _, _, h2, _⟩ :=
    handshake_runs hP chk a b addrA addrB idB sessions dst src hd hs hfree r hr hi1 hi2 hinfo
  exact ⟨sa, sb, pkt, p, q, h1, h2⟩

/-- C79 (violated): the responder does not compare the static key of the handshake with the router info. Whoever holds a router
info of `victim`, with any static secret, gets a session that the responder has under the id of `victim`. -/
theorem C79_impersonation_violated {P : Prims} (hP : P.Lawful) (chk : Bool) (secret info intro : Bytes) (victim : Nat) (b : Self)
    (addrA addrB : SockAddr) (idB : Nat) (sessions : Nat → Option Unit) (dst src : Nat) (hd : dst < 2 ^ 64) (hs : src < 2 ^ 64)
    (hfree : sessions dst = none) (r : Nat → Rnd) (hr : ∀ k, (r k).Ok) (hi1 : 3 ≤ info.length) (hi2 : info.length < 65534)
    (hinfo : P.info info = some (victim, some intro)) :
    ∃ sa sb pkt p q, honest P chk ⟨secret, intro, info, victim⟩ b addrA ⟨P.pub b.sk, b.intro, addrB, idB⟩ sessions dst src r =
      .ok (sa, sb, some pkt, p, q) ∧ sb.routerId = victim ∧ sa.send = sb.recv ∧ sa.recv = sb.send := by
  obtain ⟨sa, sb, pkt, p, q, h1, h2, h3, _, _, ⟨_, _, _, h4⟩, _⟩ :=
    handshake_runs hP chk ⟨secret, intro, info, victim⟩ b addrA addrB idB sessions dst src hd hs hfree r hr hi1 hi2 hinfo
  exact ⟨sa, sb, pkt, p, q, h1, h4, h2, h3⟩

/-- C80 (violated): the session of a dialled router is reported under the id of the dialling router, whichever router was
dialled. -/
theorem C80_dialled_id_violated {P : Prims} (hP : P.Lawful) (chk : Bool) (a b : Self) (addrA addrB : SockAddr) (idB : Nat)
    (sessions : Nat → Option Unit) (dst src : Nat) (hd : dst < 2 ^ 64) (hs : src < 2 ^ 64) (hfree : sessions dst = none)
    (r : Nat → Rnd) (hr : ∀ k, (r k).Ok) (hi1 : 3 ≤ a.info.length) (hi2 : a.info.length < 65534)
    (hinfo : P.info a.info = some (a.id, some a.intro)) (hne : idB ≠ a.id) :
    ∃ sa sb pkt created confirmed, honest P chk a b addrA ⟨P.pub b.sk, b.intro, addrB, idB⟩ sessions dst src r =
        .ok (sa, sb, some pkt, created, confirmed) ∧
      sa.routerId = a.id ∧ sa.routerId ≠ idB := by
  obtain ⟨sa, sb, pkt, p, q, h1, _, _, _, ⟨_, _, _, h⟩, _⟩ :=
    handshake_runs hP chk a b addrA addrB idB sessions dst src hd hs hfree r hr hi1 hi2 hinfo
  exact ⟨sa, sb, pkt, p, q, h1, h, by rw [h]; exact fun e => hne e.symm⟩

/-! ## One bad packet -/

/-- A packet for any connection id that reads as a data header under a key: 40 bytes. -/
theorem bogus {C : Crypto} (hC : C.Lawful) (intro : Bytes) : ∃ pkt pkt' : Bytes, pkt.length = 40 ∧
    reparse C intro intro pkt = .ok (.data 0, pkt') := by
  let p : Bytes := List.replicate 24 0
  have hp : 24 ≤ p.length := by simp [p]
  have hl2 : (xr (half2 0 6 0 0 0) (C.ks intro (iv2 p) 8)).length = 8 := by
    rw [xr_length _ _ (by rw [half2_length, hC.ks]), half2_length]
  refine ⟨le 8 0 ++ (xr (half2 0 6 0 0 0) (C.ks intro (iv2 p) 8) ++ p), _, ?_, reparse_eq (s := ⟨intro,
    iv1 (le 8 0 ++ (xr (half2 0 6 0 0 0) (C.ks intro (iv2 p) 8) ++ p)), iv2 p,
    le 8 0 ++ (half2 0 6 0 0 0 ++ p)⟩) _ _ _ ?_ ?_⟩
  · simp only [List.length_append, hl2, le_len]; simp [p]
  · simp only [List.length_append]; omega
  · have hi : ∀ x y : Bytes, iv2 (x ++ (y ++ p)) = iv2 p := fun x y => by rw [← List.append_assoc, iv2_append _ _ (by omega)]
    rw [hi]
    exact (parse_short hC intro intro _ (iv2 p) (le 8 0) p 0 6 0 0 0 (le_len ..) (by decide) (by decide) (by decide)).2 rfl

/-- C81 (violated): a session waiting for its first reply can be ended by one datagram anyone can make who knows the public intro
key of the responder: after it no packet, the genuine one included, has any effect but to end the session. -/
theorem C81_bad_packet_ends_dial_violated {P : Prims} (hP : P.Lawful) (s : Outbound) (h : s.state = .awaitingRetry) :
    ∃ pkt s', pkt.length = 40 ∧ (∀ r, s.onPacket P false pkt r = (s', .error)) ∧
      ∀ pkt2 r2, s'.onPacket P false pkt2 r2 = (s', .terminated) := by
  obtain ⟨pkt, pkt', hl, e⟩ := bogus hP.crypto s.introKey
  refine ⟨pkt, { s with state := .poisoned }, hl, fun r => ?_, fun _ _ => rfl⟩
  simp only [Outbound.onPacket, h, Outbound.onRetry, e]

theorem C81_bad_packet_ends_accept_violated {P : Prims} (hP : P.Lawful) (s : Inbound) (t : Nat) (h : s.state = .awaitingRequest t) :
    ∃ pkt s', pkt.length = 40 ∧ (∀ r, s.onPacket P false pkt r = (s', .error)) ∧
      ∀ pkt2 r2, s'.onPacket P false pkt2 r2 = (s', .terminated) := by
  obtain ⟨pkt, pkt', hl, e⟩ := bogus hP.crypto s.introKey
  refine ⟨pkt, { s with state := .poisoned }, hl, fun r => ?_, fun _ _ => rfl⟩
  simp only [Inbound.onPacket, h, Inbound.onRequest, e]

/-- C81 (violated): in any state, a packet that is not the expected one, a retransmission of the previous one for instance, ends the
handshake of the responder. -/
theorem C81_any_error_is_final_violated (P : Prims) (s : Inbound) (pkt : Bytes) (r : Rnd)
    (h : (s.onPacket P false pkt r).2 = .error) (pkt2 : Bytes) (r2 : Rnd) :
    ((s.onPacket P false pkt r).1.onPacket P false pkt2 r2).2 = .terminated := by
  have : (s.onPacket P false pkt r).1.state = .poisoned := by
    revert h
    unfold Inbound.onPacket
    split
    · unfold Inbound.onRequest
      simp only
      repeat' split
      all_goals first | (intro h; cases h; done) | (intro _; rfl)
    · unfold Inbound.onConfirmed
      simp only
      repeat' split
      all_goals first | (intro h; cases h; done) | (intro _; rfl)
    · intro h; cases h
  generalize (s.onPacket P false pkt r).1 = s' at this ⊢
  simp only [Inbound.onPacket, this, Bool.false_eq_true, if_false]

/-! ## The token is not checked -/

/-- C83 (violated): a session request is answered whatever token it carries: for every token, issued or not. -/
theorem C83_any_token_accepted_violated {P : Prims} (hP : P.Lawful) (chk : Bool) (s : Inbound) (issued : Nat)
    (h : s.state = .awaitingRequest issued) (token : Nat) (ht : token < 2 ^ 64) (esk : Bytes) (r : Rnd) (hr : r.Ok) :
    ∃ pkt pkt' n s' out, reparse P.toCrypto s.introKey s.introKey pkt = .ok (.sessionRequest (P.pub esk) 2 n token, pkt') ∧
      s.onPacket P chk pkt r = (s', .send out) := by
  let hdr := longHeader s.dstId 0 0 s.srcId (le 8 token)
  let K := s.noise.mixKey P s.staticSk (P.pub esk)
  let ct := P.seal K.1 0 ((K.2.mixHash P hdr).mixHash P (P.pub esk)).state (timePadding 0 [])
  have hp : 24 ≤ ct.length := by
    simp only [ct, seal_len hP.crypto]; have := timePadding_len 0 []; omega
  obtain ⟨out, _, _, e2, _⟩ := finish_eq hP.crypto s.introKey s.introKey s.dstId 0 0 ((le 8 s.srcId ++ le 8 token) ++ P.pub esk) ct
    (by simp [le_len, hP.pub]) hp (by decide)
  have e3 := e2 rfl
  rw [List.drop_left' (by simp [le_len]), List.append_assoc (le 8 s.srcId), slice_mid _ _ _ _ _ (le_len ..) (by simp [le_len]),
    unle_le8 _ ht] at e3
  have e4 : reparse P.toCrypto s.introKey s.introKey (unmasked P.toCrypto s.introKey out) =
      .ok (.sessionRequest (P.pub esk) 2 0 token, hdr ++ (P.pub esk ++ ct)) := by
    rw [e3]; simp only [hdr, long_eq, List.append_assoc]
  obtain ⟨o, h1, _⟩ := onRequest_eq hP chk s _ r hr e4 (longHeader_len _ _ _ _ _ (le_len ..)) (hP.pub _) (unseal_seal hP.crypto ..)
    (blocks_ok (timePadding_parse chk _ 0 [] (by decide) (by decide)))
  exact ⟨_, _, 0, _, o, e4, by simp only [Inbound.onPacket, h]; exact h1⟩

/-! ## Retransmission -/

/-- C82: an unanswered packet is sent again once per remaining delay and then given up: one timeout, last, when all the delays
have passed. -/
theorem C82_bounded_retransmission (t d : Nat) (ts : List Nat) :
    ∃ times : List Nat, times.length = ts.length ∧
      Retransmitter.events t (some d) ts = times.map .retransmit ++ [.timeout (t + d + ts.sum)] ∧
      ∀ k (hk : k < times.length), times[k] = t + d + (ts.take k).sum := by
  induction ts generalizing t d with
  | nil => exact ⟨[], rfl, by simp [Retransmitter.events], by simp⟩
  | cons x xs ih =>
    obtain ⟨times, h1, h2, h3⟩ := ih (t + d) x
    refine ⟨(t + d) :: times, by simp [h1], ?_, ?_⟩
    · simp only [Retransmitter.events, h2, List.map_cons, List.cons_append, List.sum_cons, List.cons.injEq, true_and]
      congr 3; omega
    · intro k hk
      cases k with
      | zero => simp
      | succ k => simp only [List.getElem_cons_succ, List.take_succ_cons, List.sum_cons]; rw [h3]; omega

/-- C82: the schedules of the four handshake packets (milliseconds after the packet was first sent). -/
theorem C82_schedules :
    Retransmitter.events 0 Retransmitter.tokenRequest.timer Retransmitter.tokenRequest.timeouts =
      [.retransmit 3000, .retransmit 9000, .timeout 15000] ∧
    Retransmitter.events 0 Retransmitter.sessionRequest.timer Retransmitter.sessionRequest.timeouts =
      [.retransmit 1250, .retransmit 3750, .retransmit 8750, .timeout 15000] ∧
    Retransmitter.events 0 Retransmitter.sessionCreated.timer Retransmitter.sessionCreated.timeouts =
      [.retransmit 1000, .retransmit 3000, .retransmit 7000, .timeout 12000] ∧
    Retransmitter.events 0 Retransmitter.sessionConfirmed.timer Retransmitter.sessionConfirmed.timeouts =
      [.retransmit 1250, .retransmit 3750, .retransmit 8750, .timeout 15000] := by decide

/-- C82 (violated): a responder that has sent its `Retry` waits for the request for ever: its timer never fires. -/
theorem C82_inbound_never_times_out_violated (t : Nat) :
    Retransmitter.events t Retransmitter.inactive.timer Retransmitter.inactive.timeouts = [] := rfl

/-! ## Non-vacuity -/

/-- Toy primitives: `dh` is the sum of the keys, hashes keep a few bytes. -/
def toyP : Prims where
  toCrypto := toyC
  sha b := [b.foldl (· + ·) 1]
  hmac k d := [k.foldl (· + ·) 5 ^^^ d.foldl (· + ·) 9]
  dh a b := [a.headD 0 + b.headD 0]
  pub a := a.headD 0 :: List.replicate 31 0
  info b := if b = [1, 2, 3, 4] then some (42, some [9, 9]) else none

theorem toyP_lawful : toyP.Lawful :=
  ⟨toyC_lawful, fun a b => by simp [toyP, UInt8.add_comm], fun a => by simp [toyP]⟩

/-- The toy handshake runs, with different keys in the two directions. -/
example : (match honest toyP true ⟨[5], [9, 9], [1, 2, 3, 4], 42⟩ ⟨[6], [8], [], 43⟩ (.v4 [1, 2, 3, 4] 5)
      ⟨toyP.pub [6], [8], .v4 [4, 3, 2, 1] 6, 43⟩ (fun _ => none) 1000 2000
      (fun k => { esk := [UInt8.ofNat (17 * k + 3)], token := 7, pktNum := 3, now := 1, padding := [0] }) with
    | .ok (sa, sb, _) => decide (sa.send = sb.recv ∧ sa.recv = sb.send ∧ sa.send ≠ sa.recv ∧ sb.routerId = 42)
    | _ => false) = true := by decide +kernel

end Emissary.Ssu2
