import Verif.Props.Ntcp2Handshake
/-!
# C272: NTCP2 with other implementations
-/
namespace Emissary.Ntcp2
open Emissary Emissary.I2np
open Emissary.Ssu2 (Res)

/-! ## Specification: a handshake in which the ends choose their padding and what follows the router info -/

/-- The padding of a handshake message goes into the hash "only if padding length is nonzero". -/
def mixPadding (P : HsPrims) (h padding : Bytes) : Bytes := if padding = [] then h else P.sha (h ++ padding)

/-- Message 3 part 2: a router info, with or without the wish to have it flooded, and further blocks. -/
def specPart2 (flood : Bool) (info more : Bytes) : Bytes := [2] ++ be 2 (info.length + 1) ++ [if flood then 1 else 0] ++ info ++ more

/-- The handshake of the NTCP2 specification between `a` and `b`, who draw keys and padding `ra` and `rb`. -/
structure Handshake where
  message1 : Bytes
  message2 : Bytes
  message3 : Bytes
  /-- the key and the hashes with which the second message and the first part of the third one are sealed, and the hashes before the padding -/
  key2 : Bytes
  hash1 : Bytes
  sealed2 : Bytes
  hash2 : Bytes
  sealed3 : Bytes
  keyAB : Bytes
  keyBA : Bytes
  sipAB : Bytes
  sipBA : Bytes

def specHandshake (P : HsPrims) (a b : HsSelf) (ra rb : HsRnd) (flood : Bool) (more : Bytes) : Handshake :=
  let X := P.pub ra.esk
  let Y := P.pub rb.esk
  let encX := Tunnel.cbcEnc P.aes b.hash b.iv X
  let encY := Tunnel.cbcEnc P.aes b.hash (encX.drop 16) Y
  let part2 := specPart2 flood a.info more
  -- message 1: `es`
  let ck0 := P.sha "Noise_XKaesobfse+hs2+hs3_25519_ChaChaPoly_SHA256".toUTF8.toList
  let h := P.sha ck0
  let h := P.sha (h ++ P.pub b.sk)
  let h := P.sha (h ++ X)
  let ck1 := (hkdf P ck0 (P.dh ra.esk (P.pub b.sk))).1
  let k1 := (hkdf P ck0 (P.dh ra.esk (P.pub b.sk))).2
  let c1 := P.A.enc k1 nonce0 h (specOptions1 a.netId ra.padding.length (part2.length + 16) ra.now)
  let h1 := P.sha (h ++ c1)
  let h := mixPadding P h1 ra.padding
  -- message 2: `ee`
  let s2 := P.sha (h ++ Y)
  let ck2 := (hkdf P ck1 (P.dh ra.esk Y)).1
  let k2 := (hkdf P ck1 (P.dh ra.esk Y)).2
  let c2 := P.A.enc k2 nonce0 s2 (specOptions2 rb.padding.length rb.now)
  let h2 := P.sha (s2 ++ c2)
  let s3 := mixPadding P h2 rb.padding
  -- message 3: `s`, `se`
  let c3 := P.A.enc k2 nonce1 s3 (P.pub a.sk)
  let h := P.sha (s3 ++ c3)
  let ck3 := (hkdf P ck2 (P.dh a.sk Y)).1
  let k3 := (hkdf P ck2 (P.dh a.sk Y)).2
  let c4 := P.A.enc k3 nonce0 h part2
  let h := P.sha (h ++ c4)
  -- data phase
  let temp := P.H.hmac ck3 []
  let ask := P.H.hmac temp ("ask".toUTF8.toList ++ [1])
  let sip := P.H.hmac (P.H.hmac ask (h ++ "siphash".toUTF8.toList)) [1]
  { message1 := encX ++ c1 ++ ra.padding, message2 := encY ++ c2 ++ rb.padding, message3 := c3 ++ c4, key2 := k2,
    hash1 := h1, sealed2 := s2, hash2 := h2, sealed3 := s3,
    keyAB := (hkdf P ck3 []).1, keyBA := (hkdf P ck3 []).2, sipAB := (hkdf P sip []).1, sipBA := (hkdf P sip []).2 }

/-- Values that fit their fields: `a` dials `b`. -/
structure Fits (P : HsPrims) (a b : HsSelf) (ra rb : HsRnd) (more : Bytes) : Prop where
  iv : b.iv.length = 16
  net : a.netId < 256
  sameNet : a.netId = b.netId
  info : a.info.length + more.length + 20 < 65536
  infoNet : P.netId a.info = some a.netId
  padA : ra.padding.length < 65536
  padB : rb.padding.length < 65536
  nowA : ra.now < 2 ^ 32
  nowB : rb.now < 2 ^ 32

/-! ## Lemmas -/

theorem routerInfoOf_part2 (P : HsPrims) (flood : Bool) (info more : Bytes) (hi : info.length < 65535) (hinfo : (P.netId info).isSome) :
    routerInfoOf P (specPart2 flood info more) = some info := by
  have hw : specPart2 flood info more = (Block.routerInfo flood info).wire ++ more := by
    cases flood <;> simp [specPart2, Block.wire, be]
  rw [routerInfoOf, hw, parseBlock_wire _ (show (Block.routerInfo flood info).Ok from hi)]
  simp only [bind_some_pair]
  rw [if_pos hinfo]

theorem responder_finalize_gen {P : HsPrims} (hP : P.Lawful) (esk k2 pk info part2 c3 c4 : Bytes) (n : NoiseCtx) (hpk : pk.length = 32)
    (e7 : routerInfoOf P part2 = some info)
    (h3 : c3 = P.A.enc k2 nonce1 n.state pk)
    (h4 : let N := (n.mixHash P c3).mixKey P esk pk
      c4 = P.A.enc N.1 nonce0 N.2.state part2) :
    let N := (n.mixHash P c3).mixKey P esk pk
    let K := hsKeys P N.2.ck
    Responder.finalize P (.sessionCreated esk k2 n) (c3 ++ c4) =
      .ok (⟨K.2.1, K.1, Sip.responder P.H K.2.2 (N.2.mixHash P c4).state⟩, info) := by
  intro N K
  have l3 : c3.length = 48 := by rw [h3, hP.aead.len, hpk]
  have e1 : (c3 ++ c4).take 48 = c3 := List.take_left' l3
  have e2 : (c3 ++ c4).drop 48 = c4 := List.drop_left' l3
  have e4 : ¬ (c3 ++ c4).length < 48 := by simp [l3]
  have e5 : P.A.dec k2 nonce1 n.state c3 = some pk := by rw [h3]; exact hP.aead.dec_enc ..
  have e6 : P.A.dec N.1 nonce0 N.2.state c4 = some part2 := by rw [h4]; exact hP.aead.dec_enc ..
  simp only [Responder.finalize, if_neg e4, e1, e2, dec1_eq, e5, of_some, ok_bind]
  rw [if_neg (by omega)]
  simp only [List.take_of_length_le (Nat.le_of_eq hpk), dec_eq]
  change (Ssu2.Res.of (P.A.dec N.1 nonce0 N.2.state c4) >>= _) = _
  rw [e6, of_some, ok_bind]
  simp only [e7, of_some, ok_bind]
  rfl

theorem mixPadding_ne {P : HsPrims} (h : Bytes) {p : Bytes} (hp : p ≠ []) : mixPadding P h p = P.sha (h ++ p) := if_neg hp

theorem sipKeyOf_spec (b : Bytes) : sipKeyOf b = specSip b := by simp [sipKeyOf, specSip, List.drop_take]
theorem label_ask : askLabel = "ask".toUTF8.toList := by decide +kernel
theorem label_sip : siphashLabel = "siphash".toUTF8.toList := by decide +kernel

/-! ## C272 -/

/-- C272: whatever other software dials this router, if it keeps to the specification: any padding that is not empty, any blocks after its router
info. The handshake succeeds, with the messages and the keys of the specification. Missing: requests without padding. -/
theorem C272_accepts_partial {P : HsPrims} (hP : P.Lawful) (a b : HsSelf) (ra rb : HsRnd) (flood : Bool) (more : Bytes)
    (hf : Fits P a b ra rb more) (hb : rb.padding.length = 32) (hpad : ra.padding ≠ []) (rest : Bytes) :
    let S := specHandshake P a b ra rb flood more
    acceptSession P b (S.message1 ++ (S.message3 ++ rest)) rb =
      .ok (S.message2, ⟨S.keyBA, S.keyAB, ⟨specSip S.sipBA, specSip S.sipAB⟩⟩, a.info, rest) := by
  intro S
  have hpb : rb.padding ≠ [] := by intro h; simp [h] at hb
  have lp2 : (specPart2 flood a.info more).length = a.info.length + more.length + 4 := by simp [specPart2]; omega
  generalize hx : Tunnel.cbcEnc P.aes b.hash b.iv (P.pub ra.esk) = x
  have lx : x.length = 32 := by rw [← hx]; exact HsPrims.cbc_len hP _ _ _ hf.iv (hP.pub _)
  generalize hN1 : NoiseCtx.mixKey P ((inboundStart P b.sk).mixHash P (P.pub ra.esk)) b.sk (P.pub ra.esk) = N1
  generalize hc1 : P.A.enc N1.1 nonce0 N1.2.state (specOptions1 a.netId ra.padding.length ((specPart2 flood a.info more).length + 16) ra.now) = c1
  have lc1 : c1.length = 32 := by rw [← hc1]; simp [hP.aead.len, specOptions1]
  have e2 := responder_new_eq hP (inboundStart P b.sk) b.hash b.sk b.iv (P.pub ra.esk) c1 b.netId ra.padding.length
    ((specPart2 flood a.info more).length + 16) ra.now (hP.pub _)
    hf.iv (by rw [← hf.sameNet]; exact hf.net) hf.padA (by have := hf.info; omega) hf.nowA (by rw [hN1, ← hf.sameNet]; exact hc1.symm)
  dsimp only at e2
  rw [hN1, hx] at e2
  have liv : (x.drop 16).length = 16 := by simp [lx]
  have e3 := createSession_eq hP (P.pub ra.esk) (x.drop 16) b.hash ((specPart2 flood a.info more).length + 16) (N1.2.mixHash P c1) ra.padding rb liv hb hf.nowB
  dsimp only at e3
  generalize hN2 : NoiseCtx.mixKey P _ rb.esk (P.pub ra.esk) = N2 at e3
  generalize hy : Tunnel.cbcEnc P.aes b.hash (x.drop 16) (P.pub rb.esk) = y at e3
  generalize hc2 : P.A.enc N2.1 nonce0 N2.2.state _ = c2 at e3
  have ly : y.length = 32 := by rw [← hy]; exact HsPrims.cbc_len hP _ _ _ liv (hP.pub _)
  have lc2 : c2.length = 32 := by rw [← hc2]; simp [hP.aead.len, specOptions2]
  generalize hc3 : P.A.enc N2.1 nonce1 ((N2.2.mixHash P c2).mixHash P rb.padding).state (P.pub a.sk) = c3
  generalize hN3 : NoiseCtx.mixKey P (((N2.2.mixHash P c2).mixHash P rb.padding).mixHash P c3) rb.esk (P.pub a.sk) = N3
  generalize hc4 : P.A.enc N3.1 nonce0 N3.2.state (specPart2 flood a.info more) = c4
  have lc3 : c3.length = 48 := by rw [← hc3, hP.aead.len, hP.pub]
  have lc4 : c4.length = (specPart2 flood a.info more).length + 16 := by rw [← hc4, hP.aead.len]
  have e6 := responder_finalize_gen hP rb.esk N2.1 (P.pub a.sk) a.info (specPart2 flood a.info more) c3 c4 ((N2.2.mixHash P c2).mixHash P rb.padding) (hP.pub _)
    (routerInfoOf_part2 P flood a.info more (by have := hf.info; omega) (by rw [hf.infoNet]; rfl)) hc3.symm (by rw [hN3]; exact hc4.symm)
  dsimp only at e6
  rw [hN3] at e6
  -- the specification
  rw [NoiseCtx.mixKey_comm hP] at hN1 hN2 hN3
  have m1 : S.message1 = x ++ c1 ++ ra.padding := by rw [← hc1, ← hN1, ← hx]; rfl
  have m2 : S.message2 = y ++ c2 ++ rb.padding := by
    simp only [S, specHandshake, mixPadding_ne _ hpad, mixPadding_ne _ hpb]
    rw [← hc2, ← hN2, ← hy, ← hc1, ← hN1, ← hx, hb]; rfl
  have m3 : S.message3 = c3 ++ c4 := by
    simp only [S, specHandshake, mixPadding_ne _ hpad, mixPadding_ne _ hpb, hb]
    rw [← hc4, ← hN3, ← hc3, ← hc2, ← hN2, ← hc1, ← hN1]; rfl
  have k : hsKeys P N3.2.ck = (S.keyAB, S.keyBA, P.H.hmac N3.2.ck []) := by
    simp only [S, specHandshake, mixPadding_ne _ hpad, mixPadding_ne _ hpb, hb]
    rw [← hN3, ← hc3, ← hc2, ← hN2, ← hc1, ← hN1]; rfl
  have ks : deriveSip P.H (P.H.hmac N3.2.ck []) (N3.2.mixHash P c4).state = (sipKeyOf S.sipAB, sipKeyOf S.sipBA) := by
    simp only [deriveSip, label_ask, label_sip]
    simp only [S, specHandshake, mixPadding_ne _ hpad, mixPadding_ne _ hpb, hb]
    rw [← hc4, ← hN3, ← hc3, ← hc2, ← hN2, ← hc1, ← hN1]; rfl
  rw [m1, m2, m3]
  simp only [acceptSession]
  have l : (x ++ c1).length = 64 := by simp [lx, lc1]
  rw [show x ++ c1 ++ ra.padding ++ (c3 ++ c4 ++ rest) = (x ++ c1) ++ (ra.padding ++ (c3 ++ c4 ++ rest)) by simp only [List.append_assoc],
    ← l, readExact_append, ok_bind]
  simp only
  rw [e2, ok_bind]
  simp only
  rw [readExact_append, ok_bind]
  simp only
  rw [e3, ok_bind]
  simp only
  rw [show 48 + ((specPart2 flood a.info more).length + 16) = (c3 ++ c4).length by simp [lc3, lc4], readExact_append, ok_bind]
  simp only
  rw [e6, ok_bind, k]
  simp only [Sip.responder, ks, sipKeyOf_spec]
  rw [if_neg (by rw [hf.infoNet, hf.sameNet]; simp)]
  rfl

/-- C272: whatever other software this router dials, if it keeps to the specification, with any padding that is not empty. Missing: answers without
padding. -/
theorem C272_dials_partial {P : HsPrims} (hP : P.Lawful) (chk allowLocal isLocal : Bool) (hl : isLocal = true → allowLocal = true)
    (a b : HsSelf) (ra rb : HsRnd) (hf : Fits P a b ra rb []) (ha : ra.padding.length = 32) (hpad : rb.padding ≠ []) (rest : Bytes) :
    let S := specHandshake P a b ra rb false []
    createSession P chk allowLocal a (b.published P isLocal) (S.message2 ++ rest) ra =
      .ok (S.message1, S.message3, ⟨S.keyAB, S.keyBA, ⟨specSip S.sipAB, specSip S.sipBA⟩⟩, rest) := by
  intro S
  have hpa : ra.padding ≠ [] := by intro h; simp [h] at ha
  have hi : a.info.length + 20 < 65536 := by have := hf.info; simp at this; omega
  have hp2 : specPart2 false a.info [] = specInfo a.info := by simp [specPart2, specInfo]
  have lp2 : (specPart2 false a.info []).length + 16 = a.info.length + 20 := by simp [specPart2]; omega
  have e1 := new_eq hP chk (outboundStart P) a.info a.sk (P.pub b.sk) b.hash b.iv a.netId ra hi hf.iv ha hf.nowA
  dsimp only at e1
  generalize hN1 : NoiseCtx.mixKey P _ ra.esk (P.pub b.sk) = N1 at e1
  generalize hx : Tunnel.cbcEnc P.aes b.hash b.iv (P.pub ra.esk) = x at e1
  generalize hc1 : P.A.enc N1.1 nonce0 N1.2.state _ = c1 at e1
  have lx : x.length = 32 := by rw [← hx]; exact HsPrims.cbc_len hP _ _ _ hf.iv (hP.pub _)
  have liv : (x.drop 16).length = 16 := by simp [lx]
  generalize hy : Tunnel.cbcEnc P.aes b.hash (x.drop 16) (P.pub rb.esk) = y
  have ly : y.length = 32 := by rw [← hy]; exact HsPrims.cbc_len hP _ _ _ liv (hP.pub _)
  generalize hN2 : NoiseCtx.mixKey P (((N1.2.mixHash P c1).mixHash P ra.padding).mixHash P (P.pub rb.esk)) ra.esk (P.pub rb.esk) = N2
  generalize hc2 : P.A.enc N2.1 nonce0 N2.2.state (specOptions2 rb.padding.length rb.now) = c2
  have lc2 : c2.length = 32 := by rw [← hc2]; simp [hP.aead.len, specOptions2]
  have e4 := created_eq hP ra.esk (x.drop 16) a.info a.sk b.hash (P.pub rb.esk) c2 ((N1.2.mixHash P c1).mixHash P ra.padding) rb.padding.length rb.now (hP.pub _)
    liv hf.padB hf.nowB (by rw [hN2]; exact hc2.symm)
  dsimp only at e4
  rw [hN2, hy] at e4
  have e5 := finalize_eq P chk a.info a.sk (N2.2.mixHash P c2) N2.1 (P.pub rb.esk) rb.padding (by omega)
  dsimp only at e5
  generalize hc3 : P.A.enc N2.1 nonce1 _ (P.pub a.sk) = c3 at e5
  generalize hN3 : NoiseCtx.mixKey P _ a.sk (P.pub rb.esk) = N3 at e5
  generalize hc4 : P.A.enc N3.1 nonce0 N3.2.state _ = c4 at e5
  have m1 : S.message1 = x ++ c1 ++ ra.padding := by
    simp only [S, specHandshake, mixPadding_ne _ hpad, mixPadding_ne _ hpa, ha, lp2]
    rw [← hc1, ← hN1, ← hx]; rfl
  have m2 : S.message2 = y ++ c2 ++ rb.padding := by
    simp only [S, specHandshake, mixPadding_ne _ hpad, mixPadding_ne _ hpa, ha, lp2]
    rw [← hc2, ← hN2, ← hy, ← hc1, ← hN1, ← hx]; rfl
  have m3 : S.message3 = c3 ++ c4 := by
    simp only [S, specHandshake, mixPadding_ne _ hpad, mixPadding_ne _ hpa, ha, lp2, hp2]
    rw [← hc4, ← hN3, ← hc3, ← hc2, ← hN2, ← hc1, ← hN1]; rfl
  have k : hsKeys P N3.2.ck = (S.keyAB, S.keyBA, P.H.hmac N3.2.ck []) := by
    simp only [S, specHandshake, mixPadding_ne _ hpad, mixPadding_ne _ hpa, ha, lp2, hp2]
    rw [← hN3, ← hc3, ← hc2, ← hN2, ← hc1, ← hN1]; rfl
  have ks : deriveSip P.H (P.H.hmac N3.2.ck []) (N3.2.mixHash P c4).state = (sipKeyOf S.sipAB, sipKeyOf S.sipBA) := by
    simp only [deriveSip, label_ask, label_sip]
    simp only [S, specHandshake, mixPadding_ne _ hpad, mixPadding_ne _ hpa, ha, lp2, hp2]
    rw [← hc4, ← hN3, ← hc3, ← hc2, ← hN2, ← hc1, ← hN1]; rfl
  rw [m1, m2, m3]
  simp only [createSession, HsSelf.published, of_some, ok_bind]
  rw [if_neg (by simp_all), e1, ok_bind]
  simp only
  have l : (y ++ c2).length = 64 := by simp [ly, lc2]
  rw [show y ++ c2 ++ rb.padding ++ rest = (y ++ c2) ++ (rb.padding ++ rest) by simp only [List.append_assoc], ← l, readExact_append, ok_bind]
  simp only
  rw [e4, ok_bind]
  simp only
  rw [readExact_append, ok_bind]
  simp only
  rw [e5, ok_bind, k]
  simp only [Sip.initiator, ks, sipKeyOf_spec]
  rfl

/-- C272 is violated: a router that dials this one without padding, as the specification allows, cannot read the answer, because what is hashed is not
what the specification hashes. `hA` says that the cipher notices it. -/
theorem C272_unpadded_request_violated {P : HsPrims} (hP : P.Lawful) (a b : HsSelf) (ra rb : HsRnd) (flood : Bool) (more : Bytes)
    (hf : Fits P a b ra rb more) (hb : rb.padding.length = 32) (hpad : ra.padding = []) :
    let S := specHandshake P a b ra rb flood more
    (hA : P.A.dec S.key2 nonce0 S.sealed2 (P.A.enc S.key2 nonce0 (P.sha (P.sha S.hash1 ++ P.pub rb.esk)) (specOptions2 32 rb.now)) = none) →
    ∃ s s' m2 n, Responder.new P (inboundStart P b.sk) b.hash b.sk b.iv S.message1 b.netId = .ok (s, 0) ∧
      Responder.createSession P s [] rb = .ok (s', m2, n) ∧ P.A.dec S.key2 nonce0 S.sealed2 ((m2.take 64).drop 32) = none := by
  intro S hA
  have lp2 : (specPart2 flood a.info more).length = a.info.length + more.length + 4 := by simp [specPart2]; omega
  generalize hx : Tunnel.cbcEnc P.aes b.hash b.iv (P.pub ra.esk) = x
  have lx : x.length = 32 := by rw [← hx]; exact HsPrims.cbc_len hP _ _ _ hf.iv (hP.pub _)
  generalize hN1 : NoiseCtx.mixKey P ((inboundStart P b.sk).mixHash P (P.pub ra.esk)) b.sk (P.pub ra.esk) = N1
  generalize hc1 : P.A.enc N1.1 nonce0 N1.2.state (specOptions1 a.netId 0 ((specPart2 flood a.info more).length + 16) ra.now) = c1
  have e2 := responder_new_eq hP (inboundStart P b.sk) b.hash b.sk b.iv (P.pub ra.esk) c1 b.netId 0
    ((specPart2 flood a.info more).length + 16) ra.now (hP.pub _)
    hf.iv (by rw [← hf.sameNet]; exact hf.net) (by decide) (by have := hf.info; omega) hf.nowA (by rw [hN1, ← hf.sameNet]; exact hc1.symm)
  dsimp only at e2
  rw [hN1, hx] at e2
  have liv : (x.drop 16).length = 16 := by simp [lx]
  have e3 := createSession_eq hP (P.pub ra.esk) (x.drop 16) b.hash ((specPart2 flood a.info more).length + 16) (N1.2.mixHash P c1) [] rb liv hb hf.nowB
  dsimp only at e3
  generalize hN2 : NoiseCtx.mixKey P _ rb.esk (P.pub ra.esk) = N2 at e3
  generalize hy : Tunnel.cbcEnc P.aes b.hash (x.drop 16) (P.pub rb.esk) = y at e3
  generalize hc2 : P.A.enc N2.1 nonce0 N2.2.state _ = c2 at e3
  have ly : y.length = 32 := by rw [← hy]; exact HsPrims.cbc_len hP _ _ _ liv (hP.pub _)
  have lc2 : c2.length = 32 := by rw [← hc2]; simp [hP.aead.len, specOptions2]
  rw [NoiseCtx.mixKey_comm hP] at hN1 hN2
  have m1 : S.message1 = x ++ c1 := by
    simp only [S, specHandshake, hpad, List.append_nil]
    rw [← hc1, ← hN1, ← hx]; rfl
  have k2 : S.key2 = N2.1 := by
    simp only [S, specHandshake]
    rw [← hN2, ← hc1, ← hN1]; rfl
  have h1 : S.hash1 = (N1.2.mixHash P c1).state := by
    simp only [S, specHandshake, hpad]
    rw [← hc1, ← hN1]; rfl
  refine ⟨_, _, _, _, by rw [m1]; exact e2, e3, ?_⟩
  rw [show ((y ++ c2 ++ rb.padding).take 64).drop 32 = c2 by
    rw [List.take_append_of_le_length (by simp [ly, lc2]), List.take_of_length_le (by simp [ly, lc2]), List.drop_left' ly], ← hc2]
  have h2 : N2.2.state = P.sha (P.sha S.hash1 ++ P.pub rb.esk) := by
    rw [h1, ← hN2]; simp [NoiseCtx.mixKey, NoiseCtx.mixHash]
  rw [← k2, h2]
  exact hA

/-- C272 is violated: a router that answers this one without padding cannot read the third message. -/
theorem C272_unpadded_answer_violated {P : HsPrims} (hP : P.Lawful) (chk allowLocal isLocal : Bool) (hl : isLocal = true → allowLocal = true)
    (a b : HsSelf) (ra rb : HsRnd) (hf : Fits P a b ra rb []) (ha : ra.padding.length = 32) (hpad : rb.padding = []) (rest : Bytes) :
    let S := specHandshake P a b ra rb false []
    (hA : P.A.dec S.key2 nonce1 S.sealed3 (P.A.enc S.key2 nonce1 (P.sha S.hash2) (P.pub a.sk)) = none) →
    ∃ m3 keys, createSession P chk allowLocal a (b.published P isLocal) (S.message2 ++ rest) ra = .ok (S.message1, m3, keys, rest) ∧
      P.A.dec S.key2 nonce1 S.sealed3 (m3.take 48) = none := by
  intro S hA
  have hpa : ra.padding ≠ [] := by intro h; simp [h] at ha
  have hi : a.info.length + 20 < 65536 := by have := hf.info; simp at this; omega
  have lp2 : (specPart2 false a.info []).length + 16 = a.info.length + 20 := by simp [specPart2]; omega
  have e1 := new_eq hP chk (outboundStart P) a.info a.sk (P.pub b.sk) b.hash b.iv a.netId ra hi hf.iv ha hf.nowA
  dsimp only at e1
  generalize hN1 : NoiseCtx.mixKey P _ ra.esk (P.pub b.sk) = N1 at e1
  generalize hx : Tunnel.cbcEnc P.aes b.hash b.iv (P.pub ra.esk) = x at e1
  generalize hc1 : P.A.enc N1.1 nonce0 N1.2.state _ = c1 at e1
  have lx : x.length = 32 := by rw [← hx]; exact HsPrims.cbc_len hP _ _ _ hf.iv (hP.pub _)
  have liv : (x.drop 16).length = 16 := by simp [lx]
  generalize hy : Tunnel.cbcEnc P.aes b.hash (x.drop 16) (P.pub rb.esk) = y
  have ly : y.length = 32 := by rw [← hy]; exact HsPrims.cbc_len hP _ _ _ liv (hP.pub _)
  generalize hN2 : NoiseCtx.mixKey P (((N1.2.mixHash P c1).mixHash P ra.padding).mixHash P (P.pub rb.esk)) ra.esk (P.pub rb.esk) = N2
  generalize hc2 : P.A.enc N2.1 nonce0 N2.2.state (specOptions2 0 rb.now) = c2
  have lc2 : c2.length = 32 := by rw [← hc2]; simp [hP.aead.len, specOptions2]
  have e4 := created_eq hP ra.esk (x.drop 16) a.info a.sk b.hash (P.pub rb.esk) c2 ((N1.2.mixHash P c1).mixHash P ra.padding) 0 rb.now (hP.pub _)
    liv (by decide) hf.nowB (by rw [hN2]; exact hc2.symm)
  dsimp only at e4
  rw [hN2, hy] at e4
  have e5 := finalize_eq P chk a.info a.sk (N2.2.mixHash P c2) N2.1 (P.pub rb.esk) [] (by omega)
  dsimp only at e5
  generalize hc3 : P.A.enc N2.1 nonce1 _ (P.pub a.sk) = c3 at e5
  have lc3 : c3.length = 48 := by rw [← hc3, hP.aead.len, hP.pub]
  have m1 : S.message1 = x ++ c1 ++ ra.padding := by
    simp only [S, specHandshake, ha, lp2]
    rw [← hc1, ← hN1, ← hx]; rfl
  have m2 : S.message2 = y ++ c2 := by
    simp only [S, specHandshake, mixPadding_ne _ hpa, ha, lp2, hpad, List.append_nil]
    rw [← hc2, ← hN2, ← hy, ← hc1, ← hN1, ← hx]; rfl
  have k2 : S.key2 = N2.1 := by
    simp only [S, specHandshake]
    rw [← hN2, ← hc1, ← hN1]; rfl
  have h3 : S.hash2 = (N2.2.mixHash P c2).state := by
    simp only [S, specHandshake, mixPadding_ne _ hpa, ha, lp2, hpad]
    rw [← hc2, ← hN2, ← hc1, ← hN1]; rfl
  obtain ⟨K, c4, e5⟩ : ∃ K c4, Initiator.finalize P chk (.sessionCreated a.info a.sk (N2.2.mixHash P c2) N2.1 (P.pub rb.esk)) [] = .ok (K, c3 ++ c4) :=
    ⟨_, _, e5⟩
  refine ⟨c3 ++ c4, K, ?_, ?_⟩
  · rw [m1, m2]
    simp only [createSession, HsSelf.published, of_some, ok_bind]
    rw [if_neg (by simp_all), e1, ok_bind]
    simp only
    have l : (y ++ c2).length = 64 := by simp [ly, lc2]
    rw [← l, readExact_append, ok_bind]
    simp only
    rw [e4, ok_bind]
    simp only
    rw [show readExact 0 rest = .ok ([], rest) from readExact_append [] rest, ok_bind]
    simp only
    rw [e5, ok_bind]
    rfl
  · rw [List.take_left' lc3, ← hc3, ← k2]
    have h : (NoiseCtx.mixHash P (N2.2.mixHash P c2) []).state = P.sha S.hash2 := by rw [h3]; simp [NoiseCtx.mixHash]
    rw [h]
    exact hA

/-! ## Non-vacuity -/

/-- A cipher that notices other associated data. -/
def noticing : Aead where
  enc k n ad p := p ++ ([k.foldl (· + ·) 1, n.foldl (· + ·) 2, ad.foldl (· + ·) 3] ++ List.replicate 13 0)
  dec k n ad c := if c.drop (c.length - 16) = [k.foldl (· + ·) 1, n.foldl (· + ·) 2, ad.foldl (· + ·) 3] ++ List.replicate 13 0 then some (c.take (c.length - 16)) else none

theorem noticing_lawful : noticing.Lawful := by
  refine ⟨fun k n ad p => ?_, fun k n ad p => by simp [noticing]⟩
  have h : (p ++ ([k.foldl (· + ·) 1, n.foldl (· + ·) 2, ad.foldl (· + ·) 3] ++ List.replicate 13 (0 : UInt8))).length - 16 = p.length := by simp
  simp only [noticing, h, List.drop_left, List.take_left, if_true]

def noticingHs : HsPrims := { toyHs with A := noticing }

theorem noticingHs_lawful : noticingHs.Lawful := ⟨noticing_lawful, toyHs_lawful.aes, toyHs_lawful.dh, toyHs_lawful.pub⟩

/-- 5 bytes of padding, a flood request and a padding block after the router info. -/
def other : HsRnd := ⟨[3], [1, 2, 3, 4, 5], 1003⟩

example : Fits noticingHs toyAlice toyBob other (toyRnd 7) [254, 0, 2, 0, 0] := by
  refine ⟨?_, ?_, ?_, ?_, ?_, ?_, ?_, ?_, ?_⟩ <;> decide +kernel

example : (match acceptSession noticingHs toyBob ((specHandshake noticingHs toyAlice toyBob other (toyRnd 7) true [254, 0, 2, 0, 0]).message1 ++
      ((specHandshake noticingHs toyAlice toyBob other (toyRnd 7) true [254, 0, 2, 0, 0]).message3 ++ [1])) (toyRnd 7) with
    | .ok (_, k, info, rest) => decide (k.sendKey ≠ k.recvKey ∧ info = [1, 2, 3, 4] ∧ rest = [1])
    | _ => false) = true := by decide +kernel

/-- Without padding. -/
def bare : HsRnd := ⟨[3], [], 1003⟩

example : Fits noticingHs toyAlice toyBob bare (toyRnd 7) [] := by
  refine ⟨?_, ?_, ?_, ?_, ?_, ?_, ?_, ?_, ?_⟩ <;> decide +kernel

example : let S := specHandshake noticingHs toyAlice toyBob bare (toyRnd 7) false []
    noticing.dec S.key2 nonce0 S.sealed2 (noticing.enc S.key2 nonce0 (noticingHs.sha (noticingHs.sha S.hash1 ++ noticingHs.pub (toyRnd 7).esk)) (specOptions2 32 (toyRnd 7).now)) = none := by
  decide +kernel

example : let S := specHandshake noticingHs toyAlice toyBob (toyRnd 7) bare false []
    noticing.dec S.key2 nonce1 S.sealed3 (noticing.enc S.key2 nonce1 (noticingHs.sha S.hash2) (noticingHs.pub toyAlice.sk)) = none := by
  decide +kernel

/-- The code's responder ends such a handshake with an error. -/
example : acceptSession noticingHs toyBob ((specHandshake noticingHs toyAlice toyBob bare (toyRnd 7) false []).message1 ++
      ((specHandshake noticingHs toyAlice toyBob bare (toyRnd 7) false []).message3 ++ [1])) (toyRnd 7) = .err := by decide +kernel

end Emissary.Ntcp2
