import Verif.Model.Ntcp2Handshake
import Verif.Props.Ntcp2Session
import Verif.Props.TunnelCrypto
import Verif.Props.Ssu2Handshake
/-!
# C85-C88: NTCP2 handshake
-/
namespace Emissary.Ntcp2
open Emissary Emissary.I2np
open Emissary.Ssu2 (Res)

/-- The primitives behave: sealed data opens and is 16 bytes longer, AES is invertible on blocks, Diffie-Hellman commutes, public keys
have 32 bytes. -/
structure HsPrims.Lawful (P : HsPrims) : Prop where
  aead : P.A.Lawful
  aes : P.aes.Lawful
  dh : ∀ a b, P.dh a (P.pub b) = P.dh b (P.pub a)
  pub : ∀ a, (P.pub a).length = 32

/-! ## Specification: the messages and keys of the NTCP2 specification -/

/-- HKDF with two outputs. -/
def hkdf (P : HsPrims) (ck ikm : Bytes) : Bytes × Bytes :=
  (P.H.hmac (P.H.hmac ck ikm) [1], P.H.hmac (P.H.hmac ck ikm) (P.H.hmac (P.H.hmac ck ikm) [1] ++ [2]))

/-- The 12-byte nonces 0 and 1. -/
def nonce0 : Bytes := [0, 0, 0, 0, 0, 0, 0, 0, 0, 0, 0, 0]
def nonce1 : Bytes := [0, 0, 0, 0, 1, 0, 0, 0, 0, 0, 0, 0]

/-- Options of `SessionRequest` and `SessionCreated` and message 3 part 2 as the specification lays them out. -/
def specOptions1 (netId pad m3p2 time : Nat) : Bytes := be 1 netId ++ [2] ++ be 2 pad ++ be 2 m3p2 ++ [0, 0] ++ be 4 time ++ [0, 0, 0, 0]
def specOptions2 (pad time : Nat) : Bytes := [0, 0] ++ be 2 pad ++ [0, 0, 0, 0] ++ be 4 time ++ [0, 0, 0, 0]
def specInfo (info : Bytes) : Bytes := [2] ++ be 2 (info.length + 1) ++ [0] ++ info

/-- Everything the two ends compute, step by step, as the NTCP2 specification has it: `a` dials `b`, `ra` and `rb` are what they draw. -/
structure Transcript where
  message1 : Bytes
  message2 : Bytes
  message3 : Bytes
  keyAB : Bytes
  keyBA : Bytes
  sipAB : Bytes
  sipBA : Bytes

def specTranscript (P : HsPrims) (a b : HsSelf) (ra rb : HsRnd) : Transcript :=
  let X := P.pub ra.esk
  let Y := P.pub rb.esk
  let encX := Tunnel.cbcEnc P.aes b.hash b.iv X
  let encY := Tunnel.cbcEnc P.aes b.hash (encX.drop 16) Y
  -- message 1: `es`
  let ck0 := P.sha protocolName
  let h := P.sha ck0
  let h := P.sha (h ++ P.pub b.sk)
  let h := P.sha (h ++ X)
  let ck1 := (hkdf P ck0 (P.dh ra.esk (P.pub b.sk))).1
  let k1 := (hkdf P ck0 (P.dh ra.esk (P.pub b.sk))).2
  let c1 := P.A.enc k1 nonce0 h (specOptions1 a.netId 32 (a.info.length + 20) ra.now)
  let h := P.sha (h ++ c1)
  let h := P.sha (h ++ ra.padding)
  -- message 2: `ee`
  let h := P.sha (h ++ Y)
  let ck2 := (hkdf P ck1 (P.dh ra.esk Y)).1
  let k2 := (hkdf P ck1 (P.dh ra.esk Y)).2
  let c2 := P.A.enc k2 nonce0 h (specOptions2 32 rb.now)
  let h := P.sha (h ++ c2)
  let h := P.sha (h ++ rb.padding)
  -- message 3: `s`, `se`
  let c3 := P.A.enc k2 nonce1 h (P.pub a.sk)
  let h := P.sha (h ++ c3)
  let ck3 := (hkdf P ck2 (P.dh a.sk Y)).1
  let k3 := (hkdf P ck2 (P.dh a.sk Y)).2
  let c4 := P.A.enc k3 nonce0 h (specInfo a.info)
  let h := P.sha (h ++ c4)
  -- data phase
  let temp := P.H.hmac ck3 []
  let ask := P.H.hmac temp ("ask".toUTF8.toList ++ [1])
  let sip := P.H.hmac (P.H.hmac ask (h ++ "siphash".toUTF8.toList)) [1]
  { message1 := encX ++ c1 ++ ra.padding, message2 := encY ++ c2 ++ rb.padding, message3 := c3 ++ c4,
    keyAB := (hkdf P ck3 []).1, keyBA := (hkdf P ck3 []).2, sipAB := (hkdf P sip []).1, sipBA := (hkdf P sip []).2 }

/-- The two SipHash keys and the IV in 32 bytes. -/
def specSip (b : Bytes) : SipKey := ⟨unle (b.take 8), unle ((b.take 16).drop 8), (b.take 24).drop 16⟩

/-! ## Lemmas -/

theorem HsPrims.cbc_len {P : HsPrims} (hP : P.Lawful) (key iv x : Bytes) (hiv : iv.length = 16) (hx : x.length = 32) :
    (Tunnel.cbcEnc P.aes key iv x).length = 32 := by
  have := Tunnel.cbcEnc_len hP.aes key iv x hiv (by omega)
  omega

theorem nonceBytes0 : nonceBytes 0 = nonce0 := by decide +kernel
theorem nonceBytes1 : nonceBytes 1 = nonce1 := by decide +kernel

theorem enc_eq (A : Aead) (k ad p : Bytes) : Cipher.encrypt A { key := k } ad p = (some (A.enc k nonce0 ad p), { key := k, nonce := 1 }) := by
  rw [← nonceBytes0]; rfl

theorem enc1_eq (A : Aead) (k ad p : Bytes) :
    Cipher.encrypt A { key := k, nonce := 1 } ad p = (some (A.enc k nonce1 ad p), { key := k, nonce := 2 }) := by
  rw [← nonceBytes1]; rfl

theorem dec_eq (A : Aead) (k ad p : Bytes) : Cipher.decrypt A { key := k } ad p = (A.dec k nonce0 ad p, { key := k, nonce := 1 }) := by
  rw [← nonceBytes0]; rfl

theorem dec1_eq (A : Aead) (k ad p : Bytes) :
    Cipher.decrypt A { key := k, nonce := 1 } ad p = (A.dec k nonce1 ad p, { key := k, nonce := 2 }) := by
  rw [← nonceBytes1]; rfl

theorem of_some {α : Type} (a : α) : Ssu2.Res.of (some a) = .ok a := rfl
theorem ok_bind {α β : Type} (a : α) (f : α → Ssu2.Res β) : ((Ssu2.Res.ok a) >>= f) = f a := rfl

/-- Three parts of 32 bytes each. -/
theorem parts (a b c : Bytes) (ha : a.length = 32) (hb : b.length = 32) (hc : c.length = 32) :
    ((a ++ b ++ c).take 64).drop 32 = b ∧ ((a ++ b ++ c).take 96).drop 64 = c ∧ (a ++ b ++ c).drop 64 = c ∧ (a ++ b ++ c).take 64 = a ++ b := by
  have hab : (a ++ b).length = 64 := by simp [ha, hb]
  refine ⟨?_, ?_, List.drop_left' hab, List.take_left' hab⟩
  · rw [List.take_left' hab, List.drop_left' ha]
  · rw [List.take_of_length_le (by simp [ha, hb, hc]), List.drop_left' hab]

theorem lastBlock_eq (ct : Bytes) (h : ct.length = 32) : lastBlock ct = ct.drop 16 := by rw [lastBlock, h]

theorem options1_eq (netId pad m3 time : Nat) : InitiatorOptions.serialize ⟨netId, 2, pad, m3, time⟩ = specOptions1 netId pad m3 time := by
  have e1 : be 1 2 = [2] := by decide +kernel
  have e2 : be 2 0 = [0, 0] := by decide +kernel
  have e3 : be 4 0 = [0, 0, 0, 0] := by decide +kernel
  simp only [InitiatorOptions.serialize, specOptions1, e1, e2, e3]
theorem options2_eq (pad time : Nat) : ResponderOptions.serialize ⟨pad, time⟩ = specOptions2 pad time := rfl

theorem new_eq {P : HsPrims} (hP : P.Lawful) (chk : Bool) (n : NoiseCtx) (info sk rpk hash iv : Bytes) (netId : Nat) (r : HsRnd)
    (hi : info.length + 20 < 65536) (hiv : iv.length = 16) (hp : r.padding.length = 32) (ht : r.now < 2 ^ 32) :
    let N := ((n.mixHash P rpk).mixHash P (P.pub r.esk)).mixKey P r.esk rpk
    let x := Tunnel.cbcEnc P.aes hash iv (P.pub r.esk)
    let c := P.A.enc N.1 nonce0 N.2.state (specOptions1 netId 32 (info.length + 20) r.now)
    Initiator.new P chk n info sk rpk hash iv netId r =
      .ok (.sessionRequested r.esk (x.drop 16) info sk ((N.2.mixHash P c).mixHash P r.padding) hash, x ++ c ++ r.padding) := by
  intro N x c
  have lx : x.length = 32 := HsPrims.cbc_len hP _ _ _ hiv (hP.pub _)
  have lc : c.length = 32 := by simp [c, hP.aead.len, specOptions1]
  obtain ⟨e1, e2, -, -⟩ := parts x c r.padding lx lc hp
  simp only [Initiator.new, add16, Nat.mod_eq_of_lt (show info.length < 65536 by omega), if_pos hi, ok_bind, Nat.mod_eq_of_lt ht,
    options1_eq, enc_eq, of_some]
  change Ssu2.Res.ok (InitiatorState.sessionRequested r.esk (lastBlock x) info sk
    ((N.2.mixHash P (((x ++ c ++ r.padding).take 64).drop 32)).mixHash P (((x ++ c ++ r.padding).take 96).drop 64)) hash, x ++ c ++ r.padding) = _
  rw [e1, e2, lastBlock_eq _ lx]

theorem responder_new_eq {P : HsPrims} (hP : P.Lawful) (n : NoiseCtx) (hash sk iv x c : Bytes) (netId pad m3 time : Nat) (lx : x.length = 32)
    (hiv : iv.length = 16) (hn : netId < 256) (hp : pad < 2 ^ 16) (hm : m3 < 2 ^ 16) (ht : time < 2 ^ 32)
    (hc : let N := (n.mixHash P x).mixKey P sk x
      c = P.A.enc N.1 nonce0 N.2.state (specOptions1 netId pad m3 time)) :
    let N := (n.mixHash P x).mixKey P sk x
    let y := Tunnel.cbcEnc P.aes hash iv x
    Responder.new P n hash sk iv (y ++ c) netId = .ok (.sessionRequested x (y.drop 16) hash m3 (N.2.mixHash P c), pad) := by
  intro N y
  have ly : y.length = 32 := HsPrims.cbc_len hP _ _ _ hiv lx
  have lc : c.length = 32 := by rw [hc]; simp [hP.aead.len, specOptions1]
  have e1 : (y ++ c).take 32 = y := List.take_left' ly
  have e2 : (y ++ c).drop 32 = c := List.drop_left' ly
  have e3 : (y ++ c).take 64 = y ++ c := List.take_of_length_le (by simp [ly, lc])
  have e4 : ¬ (y ++ c).length < 64 := by simp [ly, lc]
  have e5 : Tunnel.cbcDec P.aes hash iv y = x := Tunnel.cbcDec_cbcEnc hP.aes hash iv x hiv (by omega)
  have e6 : P.A.dec N.1 nonce0 N.2.state c = some (specOptions1 netId pad m3 time) := by rw [hc]; exact hP.aead.dec_enc ..
  have e7 : InitiatorOptions.parse (specOptions1 netId pad m3 time) = some (⟨netId, 2, pad, m3, time⟩, []) := by
    have := (C31_initiator_options_roundtrip ⟨netId, 2, pad, m3, time⟩ [] hn (by show 2 < 256; decide) hp hm ht).2
    rw [List.append_nil, options1_eq] at this
    exact this
  simp only [Responder.new, if_neg e4, e1, e2, e3, e5, dec_eq]
  rw [if_neg (by omega)]
  change (Ssu2.Res.of (P.A.dec N.1 nonce0 N.2.state c) >>= _) = _
  rw [e6, of_some, ok_bind]
  simp only [e7, of_some, ok_bind, ne_eq, not_true_eq_false, if_false]
  rw [lastBlock_eq _ ly]
  rfl

theorem createSession_eq {P : HsPrims} (hP : P.Lawful) (x iv hash : Bytes) (m3 : Nat) (n : NoiseCtx) (padding : Bytes) (r : HsRnd)
    (hiv : iv.length = 16) (hp : r.padding.length = 32) (ht : r.now < 2 ^ 32) :
    let N := ((n.mixHash P padding).mixHash P (P.pub r.esk)).mixKey P r.esk x
    let y := Tunnel.cbcEnc P.aes hash iv (P.pub r.esk)
    let c := P.A.enc N.1 nonce0 N.2.state (specOptions2 32 r.now)
    Responder.createSession P (.sessionRequested x iv hash m3 n) padding r =
      .ok (.sessionCreated r.esk N.1 ((N.2.mixHash P c).mixHash P r.padding), y ++ c ++ r.padding, 48 + m3) := by
  intro N y c
  have ly : y.length = 32 := HsPrims.cbc_len hP _ _ _ hiv (hP.pub _)
  have lc : c.length = 32 := by simp [c, hP.aead.len, specOptions2]
  obtain ⟨e1, -, e2, -⟩ := parts y c r.padding ly lc hp
  simp only [Responder.createSession, Nat.mod_eq_of_lt ht, options2_eq, enc_eq, of_some, ok_bind]
  change Ssu2.Res.ok (ResponderState.sessionCreated r.esk N.1
    ((N.2.mixHash P (((y ++ c ++ r.padding).take 64).drop 32)).mixHash P ((y ++ c ++ r.padding).drop 64)), y ++ c ++ r.padding, 48 + m3) = _
  rw [e1, e2]

theorem created_eq {P : HsPrims} (hP : P.Lawful) (esk iv info sk hash y c : Bytes) (n : NoiseCtx) (pad time : Nat) (ly : y.length = 32)
    (hiv : iv.length = 16) (hp : pad < 2 ^ 16) (ht : time < 2 ^ 32)
    (hc : let N := (n.mixHash P y).mixKey P esk y
      c = P.A.enc N.1 nonce0 N.2.state (specOptions2 pad time)) :
    let N := (n.mixHash P y).mixKey P esk y
    Initiator.created P (.sessionRequested esk iv info sk n hash) (Tunnel.cbcEnc P.aes hash iv y ++ c) =
      .ok (.sessionCreated info sk (N.2.mixHash P c) N.1 y, pad) := by
  intro N
  generalize hx : Tunnel.cbcEnc P.aes hash iv y = x
  have lx : x.length = 32 := by rw [← hx]; exact HsPrims.cbc_len hP _ _ _ hiv ly
  have lc : c.length = 32 := by rw [hc]; simp [hP.aead.len, specOptions2]
  have e1 : (x ++ c).take 32 = x := List.take_left' lx
  have e2 : (x ++ c).drop 32 = c := List.drop_left' lx
  have e3 : (x ++ c).take 64 = x ++ c := List.take_of_length_le (by simp [lx, lc])
  have e4 : ¬ (x ++ c).length < 64 := by simp [lx, lc]
  have e5 : Tunnel.cbcDec P.aes hash iv x = y := by rw [← hx]; exact Tunnel.cbcDec_cbcEnc hP.aes hash iv y hiv (by omega)
  have e6 : P.A.dec N.1 nonce0 N.2.state c = some (specOptions2 pad time) := by rw [hc]; exact hP.aead.dec_enc ..
  have e7 : ResponderOptions.parse (specOptions2 pad time) = some (⟨pad, time⟩, []) := by
    have := (C31_responder_options_roundtrip ⟨pad, time⟩ [] hp ht).2
    rw [List.append_nil] at this
    exact this
  simp only [Initiator.created, if_neg e4, e1, e2, e3, e5, dec_eq]
  rw [if_neg (by omega)]
  change (Ssu2.Res.of (P.A.dec N.1 nonce0 N.2.state c) >>= _) = _
  rw [e6, of_some, ok_bind]
  simp only [e7, of_some, ok_bind]
  rfl

theorem info_eq (info : Bytes) (hi : info.length < 65535) : newRouterInfo info = specInfo info := by
  simp only [newRouterInfo, specInfo, Nat.mod_eq_of_lt (show info.length < 65536 by omega)]
  rfl

theorem finalize_eq (P : HsPrims) (chk : Bool) (info sk : Bytes) (n : NoiseCtx) (k2 y padding : Bytes) (hi : info.length < 65535) :
    let c3 := P.A.enc k2 nonce1 (n.mixHash P padding).state (P.pub sk)
    let N := ((n.mixHash P padding).mixHash P c3).mixKey P sk y
    let c4 := P.A.enc N.1 nonce0 N.2.state (specInfo info)
    let K := hsKeys P N.2.ck
    Initiator.finalize P chk (.sessionCreated info sk n k2 y) padding =
      .ok (⟨K.1, K.2.1, Sip.initiator P.H K.2.2 (N.2.mixHash P c4).state⟩, c3 ++ c4) := by
  intro c3 N c4 K
  simp only [Initiator.finalize, enc1_eq, enc_eq, of_some, ok_bind, add16, Nat.mod_eq_of_lt (show info.length < 65536 by omega),
    if_pos (show info.length + 1 < 65536 by omega), info_eq info hi]
  rfl

theorem responder_finalize_eq {P : HsPrims} (hP : P.Lawful) (esk k2 pk info c3 c4 : Bytes) (n : NoiseCtx) (hpk : pk.length = 32)
    (hi : info.length < 65535) (hinfo : (P.netId info).isSome)
    (h3 : c3 = P.A.enc k2 nonce1 n.state pk)
    (h4 : let N := (n.mixHash P c3).mixKey P esk pk
      c4 = P.A.enc N.1 nonce0 N.2.state (specInfo info)) :
    let N := (n.mixHash P c3).mixKey P esk pk
    let K := hsKeys P N.2.ck
    Responder.finalize P (.sessionCreated esk k2 n) (c3 ++ c4) =
      .ok (⟨K.2.1, K.1, Sip.responder P.H K.2.2 (N.2.mixHash P c4).state⟩, info) := by
  intro N K
  have l3 : c3.length = 48 := by rw [h3, hP.aead.len, hpk]
  have e1 : (c3 ++ c4).take 48 = c3 := List.take_left' l3
  have e2 : (c3 ++ c4).drop 48 = c4 := List.drop_left' l3
  have e4 : ¬ (c3 ++ c4).length < 48 := by simp [l3]
  have e5 : P.A.dec k2 nonce1 n.state c3 = some pk := by rw [h3]; exact hP.aead.dec_enc ..
  have e6 : P.A.dec N.1 nonce0 N.2.state c4 = some (specInfo info) := by rw [h4]; exact hP.aead.dec_enc ..
  have e7 : routerInfoOf P (specInfo info) = some info := by
    have hw : specInfo info = (Block.routerInfo false info).wire ++ [] := by
      rw [← info_eq info hi, (C30_emitted_blocks info hi ⟨.data, 0, 0, []⟩).1, List.append_nil]
    rw [routerInfoOf, hw, parseBlock_wire _ (show (Block.routerInfo false info).Ok from hi)]
    simp only [bind_some_pair]
    rw [if_pos hinfo]
  simp only [Responder.finalize, if_neg e4, e1, e2, dec1_eq, e5, of_some, ok_bind]
  rw [if_neg (by omega)]
  simp only [List.take_of_length_le (Nat.le_of_eq hpk), dec_eq]
  change (Ssu2.Res.of (P.A.dec N.1 nonce0 N.2.state c4) >>= _) = _
  rw [e6, of_some, ok_bind]
  simp only [e7, of_some, ok_bind]
  rfl

/-! ## C85 -/

theorem readExact_append (a b : Bytes) : readExact a.length (a ++ b) = .ok (a, b) := by
  simp [readExact]

/-- Values that fit their fields: `a` dials `b`. -/
structure HsFit (P : HsPrims) (a b : HsSelf) (ra rb : HsRnd) : Prop where
  iv : b.iv.length = 16
  net : a.netId < 256
  sameNet : a.netId = b.netId
  info : a.info.length + 20 < 65536
  infoNet : P.netId a.info = some a.netId
  padA : ra.padding.length = 32
  padB : rb.padding.length = 32
  nowA : ra.now < 2 ^ 32
  nowB : rb.now < 2 ^ 32

/-- What `b` publishes. -/
def HsSelf.published (P : HsPrims) (b : HsSelf) (isLocal : Bool) : HsRemote := ⟨some (P.pub b.sk), some b.iv, b.hash, some isLocal⟩

theorem mixKey_hkdf (P : HsPrims) (n : NoiseCtx) (a b : Bytes) :
    n.mixKey P a b = ((hkdf P n.ck (P.dh a b)).2, ⟨(hkdf P n.ck (P.dh a b)).1, n.state⟩) := rfl

theorem NoiseCtx.mixKey_comm {P : HsPrims} (hP : P.Lawful) (n : NoiseCtx) (a b : Bytes) :
    n.mixKey P a (P.pub b) = n.mixKey P b (P.pub a) := by
  simp only [NoiseCtx.mixKey, hP.dh a b]

/-- C85: for every pair of routers on one network and whatever they draw, the handshake over a faithful connection succeeds at both ends:
the messages are those of the specification, the responder gets the initiator's router info, each end's keys and length obfuscation are
the specification's and mirror the other's, and neither takes a byte of what follows (`restA`, `restB`) off the stream. -/
theorem C85_handshake_agrees {P : HsPrims} (hP : P.Lawful) (chk allowLocal isLocal : Bool) (hl : isLocal = true → allowLocal = true)
    (a b : HsSelf) (ra rb : HsRnd) (hf : HsFit P a b ra rb) (restA restB : Bytes) :
    let T := specTranscript P a b ra rb
    createSession P chk allowLocal a (b.published P isLocal) (T.message2 ++ restB) ra =
      .ok (T.message1, T.message3, ⟨T.keyAB, T.keyBA, ⟨specSip T.sipAB, specSip T.sipBA⟩⟩, restB) ∧
    acceptSession P b (T.message1 ++ (T.message3 ++ restA)) rb =
      .ok (T.message2, ⟨T.keyBA, T.keyAB, ⟨specSip T.sipBA, specSip T.sipAB⟩⟩, a.info, restA) := by
  intro T
  -- initiator: message 1
  have e1 := new_eq hP chk (outboundStart P) a.info a.sk (P.pub b.sk) b.hash b.iv a.netId ra hf.info hf.iv hf.padA hf.nowA
  dsimp only at e1
  generalize hN1 : NoiseCtx.mixKey P _ ra.esk (P.pub b.sk) = N1 at e1
  generalize hx : Tunnel.cbcEnc P.aes b.hash b.iv (P.pub ra.esk) = x at e1
  generalize hc1 : P.A.enc N1.1 nonce0 N1.2.state _ = c1 at e1
  have lx : x.length = 32 := by rw [← hx]; exact HsPrims.cbc_len hP _ _ _ hf.iv (hP.pub _)
  have lc1 : c1.length = 32 := by rw [← hc1]; simp [hP.aead.len, specOptions1]
  -- responder: message 1
  have hib : inboundStart P b.sk = (outboundStart P).mixHash P (P.pub b.sk) := rfl
  have hN1' : NoiseCtx.mixKey P ((inboundStart P b.sk).mixHash P (P.pub ra.esk)) b.sk (P.pub ra.esk) = N1 := by
    rw [NoiseCtx.mixKey_comm hP, hib, hN1]
  have e2 := responder_new_eq hP (inboundStart P b.sk) b.hash b.sk b.iv (P.pub ra.esk) c1 b.netId 32 (a.info.length + 20) ra.now (hP.pub _)
    hf.iv (by rw [← hf.sameNet]; exact hf.net) (by decide) hf.info hf.nowA (by rw [hN1', ← hf.sameNet]; exact hc1.symm)
  dsimp only at e2
  rw [hN1', hx] at e2
  -- responder: message 2
  have liv : (x.drop 16).length = 16 := by simp [lx]
  have e3 := createSession_eq hP (P.pub ra.esk) (x.drop 16) b.hash (a.info.length + 20) (N1.2.mixHash P c1) ra.padding rb liv hf.padB hf.nowB
  dsimp only at e3
  generalize hN2 : NoiseCtx.mixKey P _ rb.esk (P.pub ra.esk) = N2 at e3
  generalize hy : Tunnel.cbcEnc P.aes b.hash (x.drop 16) (P.pub rb.esk) = y at e3
  generalize hc2 : P.A.enc N2.1 nonce0 N2.2.state _ = c2 at e3
  have ly : y.length = 32 := by rw [← hy]; exact HsPrims.cbc_len hP _ _ _ liv (hP.pub _)
  have lc2 : c2.length = 32 := by rw [← hc2]; simp [hP.aead.len, specOptions2]
  -- initiator: message 2
  rw [NoiseCtx.mixKey_comm hP] at hN2
  have e4 := created_eq hP ra.esk (x.drop 16) a.info a.sk b.hash (P.pub rb.esk) c2 ((N1.2.mixHash P c1).mixHash P ra.padding) 32 rb.now (hP.pub _)
    liv (by decide) hf.nowB (by rw [hN2]; exact hc2.symm)
  dsimp only at e4
  rw [hN2, hy] at e4
  -- initiator: message 3
  have e5 := finalize_eq P chk a.info a.sk (N2.2.mixHash P c2) N2.1 (P.pub rb.esk) rb.padding (by have := hf.info; omega)
  dsimp only at e5
  generalize hc3 : P.A.enc N2.1 nonce1 _ (P.pub a.sk) = c3 at e5
  generalize hN3 : NoiseCtx.mixKey P _ a.sk (P.pub rb.esk) = N3 at e5
  generalize hc4 : P.A.enc N3.1 nonce0 N3.2.state _ = c4 at e5
  have lc3 : c3.length = 48 := by rw [← hc3, hP.aead.len, hP.pub]
  have lc4 : c4.length = a.info.length + 20 := by rw [← hc4, hP.aead.len]; simp [specInfo]; omega
  -- responder: message 3
  rw [NoiseCtx.mixKey_comm hP] at hN3
  have e6 := responder_finalize_eq hP rb.esk N2.1 (P.pub a.sk) a.info c3 c4 ((N2.2.mixHash P c2).mixHash P rb.padding) (hP.pub _)
    (by have := hf.info; omega) (by rw [hf.infoNet]; rfl) hc3.symm (by rw [hN3]; exact hc4.symm)
  dsimp only at e6
  rw [hN3] at e6
  -- the specification
  rw [← NoiseCtx.mixKey_comm hP] at hN3
  have m1 : T.message1 = x ++ c1 ++ ra.padding := by rw [← hc1, ← hN1, ← hx]; rfl
  have m2 : T.message2 = y ++ c2 ++ rb.padding := by rw [← hc2, ← hN2, ← hy, ← hc1, ← hN1, ← hx]; rfl
  have m3 : T.message3 = c3 ++ c4 := by rw [← hc4, ← hN3, ← hc3, ← hc2, ← hN2, ← hc1, ← hN1]; rfl
  have k : hsKeys P N3.2.ck = (T.keyAB, T.keyBA, P.H.hmac N3.2.ck []) := by rw [← hN3, ← hc3, ← hc2, ← hN2, ← hc1, ← hN1]; rfl
  have ks : deriveSip P.H (P.H.hmac N3.2.ck []) (N3.2.mixHash P c4).state = (sipKeyOf T.sipAB, sipKeyOf T.sipBA) := by
    have la : askLabel = "ask".toUTF8.toList := by decide +kernel
    have ls : siphashLabel = "siphash".toUTF8.toList := by decide +kernel
    simp only [deriveSip, la, ls]
    rw [← hc4, ← hN3, ← hc3, ← hc2, ← hN2, ← hc1, ← hN1]; rfl
  have hs : ∀ b, sipKeyOf b = specSip b := fun b => by simp [sipKeyOf, specSip, List.drop_take]
  rw [m1, m2, m3]
  constructor
  · simp only [createSession, HsSelf.published, of_some, ok_bind]
    rw [if_neg (by simp_all), e1, ok_bind]
    simp only
    have l : (y ++ c2).length = 64 := by simp [ly, lc2]
    rw [show y ++ c2 ++ rb.padding ++ restB = (y ++ c2) ++ (rb.padding ++ restB) by simp only [List.append_assoc], ← l, readExact_append, ok_bind]
    simp only
    rw [e4, ok_bind]
    simp only
    rw [← hf.padB, readExact_append, ok_bind]
    simp only
    rw [e5, ok_bind, k]
    simp only [Sip.initiator, ks, hs]
    rfl
  · simp only [acceptSession]
    have l : (x ++ c1).length = 64 := by simp [lx, lc1]
    rw [show x ++ c1 ++ ra.padding ++ (c3 ++ c4 ++ restA) = (x ++ c1) ++ (ra.padding ++ (c3 ++ c4 ++ restA)) by simp only [List.append_assoc],
      ← l, readExact_append, ok_bind]
    simp only
    rw [e2, ok_bind]
    simp only
    rw [← hf.padA, readExact_append, ok_bind]
    simp only
    rw [e3, ok_bind]
    simp only
    rw [show 48 + (a.info.length + 20) = (c3 ++ c4).length by simp [lc3, lc4], readExact_append, ok_bind]
    simp only
    rw [e6, ok_bind, k]
    simp only [Sip.responder, ks, hs]
    rw [if_neg (by rw [hf.infoNet, hf.sameNet]; simp)]
    rfl

/-- The reader of an end with keys `rx` hands on what the writer of an end with keys `tx` was given: whatever messages and partial writes there
are, whatever part has arrived, however it is cut into reads. -/
def Delivers (E : Env) (tx rx : KeyContext) : Prop :=
  ∀ (ops : List SendOp), (∀ m, SendOp.message m ∈ ops → Sendable m) →
    let w := Writer.new { key := tx.sendKey } tx.sip
    let got := accepted E w ops
    got.length < 2 ^ 64 → ∀ (arrived : Bytes), arrived <+: (w.run E (ops.map SendOp.op)).1.out → ∀ (ns : List Nat),
    let r := (Reader.new { key := rx.recvKey } rx.sip).run E arrived ns
    r.2 = [] →
      (∃ k, r.1.out = (got.take k).map (arrival E)) ∧ r.1.ended = none ∧
      ((w.run E (ops.map SendOp.op)).1.state = .getMessage → arrived = (w.run E (ops.map SendOp.op)).1.out → r.1.out = got.map (arrival E))

/-- C85: after the handshake the session carries messages both ways. -/
theorem C85_session_carries_messages {P : HsPrims} (hP : P.Lawful) (chk allowLocal isLocal : Bool) (hl : isLocal = true → allowLocal = true)
    (a b : HsSelf) (ra rb : HsRnd) (hf : HsFit P a b ra rb) (expired : Message → Bool) (m1 m2 m3 restA restB : Bytes) (ka : KeyContext)
    (h1 : createSession P chk allowLocal a (b.published P isLocal) ((specTranscript P a b ra rb).message2 ++ restB) ra = .ok (m1, m3, ka, restB))
    (kb : KeyContext) (info : Bytes) (h2 : acceptSession P b (m1 ++ (m3 ++ restA)) rb = .ok (m2, kb, info, restA)) :
    Delivers ⟨P.H, P.A, expired⟩ ka kb ∧ Delivers ⟨P.H, P.A, expired⟩ kb ka := by
  obtain ⟨c1, c2⟩ := C85_handshake_agrees hP chk allowLocal isLocal hl a b ra rb hf restA restB
  rw [c1] at h1
  simp only [Ssu2.Res.ok.injEq, Prod.mk.injEq] at h1
  obtain ⟨rfl, rfl, rfl, -⟩ := h1
  rw [c2] at h2
  simp only [Ssu2.Res.ok.injEq, Prod.mk.injEq] at h2
  obtain ⟨-, rfl, -, -⟩ := h2
  constructor
  · intro ops hops w got hn arrived harr ns r hr
    exact C68_in_order_exactly_once_partial ⟨P.H, P.A, expired⟩ hP.aead _ _ _ rfl ops hops (by simpa using hn) arrived harr ns hr
  · intro ops hops w got hn arrived harr ns r hr
    exact C68_in_order_exactly_once_partial ⟨P.H, P.A, expired⟩ hP.aead _ _ _ rfl ops hops (by simpa using hn) arrived harr ns hr

/-! ## C86 -/

theorem bind_ok {α β : Type} {x : Ssu2.Res α} {f : α → Ssu2.Res β} {b : β} (h : (x >>= f) = .ok b) : ∃ a, x = .ok a ∧ f a = .ok b := by
  cases x with
  | ok a => exact ⟨a, rfl, h⟩
  | err => cases h
  | panic => cases h

/-- C86: a router accepts a session only with a router of its own network. -/
theorem C86_accepted_router_is_on_network (P : HsPrims) (me : HsSelf) (stream : Bytes) (r : HsRnd) (m2 info rest : Bytes) (k : KeyContext)
    (h : acceptSession P me stream r = .ok (m2, k, info, rest)) : P.netId info = some me.netId := by
  obtain ⟨_, -, h⟩ := bind_ok h
  obtain ⟨_, -, h⟩ := bind_ok h
  obtain ⟨_, -, h⟩ := bind_ok h
  obtain ⟨_, -, h⟩ := bind_ok h
  obtain ⟨_, -, h⟩ := bind_ok h
  obtain ⟨⟨k', info'⟩, -, h⟩ := bind_ok h
  dsimp only at h
  by_cases hn : P.netId info' ≠ some me.netId
  · rw [if_pos hn] at h; cases h
  · rw [if_neg hn] at h
    have : info' = info := by
      have := Ssu2.Res.ok.inj h
      simp only [Prod.mk.injEq] at this
      exact this.2.2.1
    rw [← this]
    exact Classical.not_not.mp hn

/-- A `SessionRequest` made for `b` with the given version and network id. -/
def requestFor (P : HsPrims) (b : HsSelf) (esk : Bytes) (netId version pad m3 time : Nat) : Bytes :=
  let h := P.sha (P.sha (P.sha (P.sha protocolName) ++ P.pub b.sk) ++ P.pub esk)
  Tunnel.cbcEnc P.aes b.hash b.iv (P.pub esk) ++ P.A.enc (hkdf P (P.sha protocolName) (P.dh esk (P.pub b.sk))).2 nonce0 h
    (be 1 netId ++ be 1 version ++ be 2 pad ++ be 2 m3 ++ [0, 0] ++ be 4 time ++ [0, 0, 0, 0])

/-- C86: a request for another network or another protocol version is refused before anything is sent. -/
theorem C86_other_network_or_version_refused {P : HsPrims} (hP : P.Lawful) (b : HsSelf) (hiv : b.iv.length = 16) (esk : Bytes)
    (netId version pad m3 time : Nat) (h1 : netId < 256) (h2 : version < 256) (h3 : pad < 65536) (h4 : m3 < 65536) (h5 : time < 2 ^ 32)
    (hbad : netId ≠ b.netId ∨ version ≠ 2) (rest : Bytes) (r : HsRnd) :
    acceptSession P b (requestFor P b esk netId version pad m3 time ++ rest) r = .err := by
  have e0 : be 2 0 = [0, 0] := by decide +kernel
  have e0' : be 4 0 = [0, 0, 0, 0] := by decide +kernel
  simp only [requestFor]
  generalize hx : Tunnel.cbcEnc P.aes b.hash b.iv (P.pub esk) = x
  have lx : x.length = 32 := by rw [← hx]; exact HsPrims.cbc_len hP _ _ _ hiv (hP.pub _)
  have e5 : Tunnel.cbcDec P.aes b.hash b.iv x = P.pub esk := by
    rw [← hx]; exact Tunnel.cbcDec_cbcEnc hP.aes _ _ _ hiv (by rw [hP.pub]; decide)
  generalize hN : NoiseCtx.mixKey P ((inboundStart P b.sk).mixHash P (P.pub esk)) b.sk (P.pub esk) = N
  have hk : (hkdf P (P.sha protocolName) (P.dh esk (P.pub b.sk))).2 = N.1 := by rw [← hN, NoiseCtx.mixKey_comm hP]; rfl
  have hs : P.sha (P.sha (P.sha (P.sha protocolName) ++ P.pub b.sk) ++ P.pub esk) = N.2.state := by rw [← hN]; rfl
  rw [hk, hs]
  have ho : be 1 netId ++ be 1 version ++ be 2 pad ++ be 2 m3 ++ [0, 0] ++ be 4 time ++ [0, 0, 0, 0] =
      (InitiatorOptions.mk netId version pad m3 time).serialize := by simp only [InitiatorOptions.serialize, e0, e0']
  rw [ho]
  generalize hc : P.A.enc N.1 nonce0 N.2.state _ = c
  have lc : c.length = 32 := by rw [← hc]; simp [hP.aead.len, InitiatorOptions.serialize]
  have l : (x ++ c).length = 64 := by simp [lx, lc]
  have e1 : (x ++ c).take 32 = x := List.take_left' lx
  have e2 : (x ++ c).drop 32 = c := List.drop_left' lx
  have e6 : P.A.dec N.1 nonce0 N.2.state c = some (InitiatorOptions.mk netId version pad m3 time).serialize := by
    rw [← hc]; exact hP.aead.dec_enc ..
  have e7 : InitiatorOptions.parse (InitiatorOptions.mk netId version pad m3 time).serialize = some (⟨netId, version, pad, m3, time⟩, []) := by
    have := (C31_initiator_options_roundtrip ⟨netId, version, pad, m3, time⟩ [] h1 h2 h3 h4 h5).2
    rwa [List.append_nil] at this
  have : Responder.new P (inboundStart P b.sk) b.hash b.sk b.iv (x ++ c) b.netId = .err := by
    simp only [Responder.new, l, if_neg (show ¬ 64 < 64 by omega), e1, e2, e5, dec_eq, hP.pub, ne_eq, not_true_eq_false, if_false, hN, e6,
      of_some, ok_bind, e7]
    by_cases hn : netId = b.netId
    · rw [if_neg (by simp [hn]), if_pos (by rcases hbad with h | h <;> simp_all)]
    · rw [if_pos hn]
  simp only [acceptSession]
  rw [← l, readExact_append, ok_bind]
  simp only
  rw [this]
  rfl

/-- C86: unless local addresses are allowed, a router with a local IPv4 address is not dialled: nothing is sent. A router
without static key, IV or address is not dialled either. -/
theorem C86_not_dialled (P : HsPrims) (chk : Bool) (me : HsSelf) (to : HsRemote) (stream : Bytes) (r : HsRnd) :
    (to.address = some true → createSession P chk false me to stream r = .err) ∧
    (to.address = none ∨ to.pk = none ∨ to.iv = none → ∀ allow, createSession P chk allow me to stream r = .err) := by
  constructor
  · intro h
    simp only [createSession, h]
    cases to.pk <;> cases to.iv <;> rfl
  · intro h allow
    simp only [createSession]
    cases hp : to.pk <;> cases hi : to.iv <;> cases ha : to.address <;> first | rfl | (simp [hp, hi, ha] at h)

/-! ## C87 -/

/-- C87 (violated): anyone can open an NTCP2 session in the name of any router. A peer with *any* static key `sk'` that presents the (public)
router info of `a` is accepted, and the session is reported as one with `a`. -/
theorem C87_static_key_not_bound_violated {P : HsPrims} (hP : P.Lawful) (a b : HsSelf) (ra rb : HsRnd) (hf : HsFit P a b ra rb)
    (sk' rest : Bytes) :
    ∃ m1 m2 m3 k, (∀ chk, createSession P chk true { a with sk := sk' } (b.published P false) m2 ra = .ok (m1, m3, k, [])) ∧
      acceptSession P b (m1 ++ (m3 ++ rest)) rb = .ok (m2, ⟨k.recvKey, k.sendKey, ⟨k.sip.receiver, k.sip.sender⟩⟩, a.info, rest) := by
  have hf' : HsFit P { a with sk := sk' } b ra rb :=
    ⟨hf.iv, hf.net, hf.sameNet, hf.info, hf.infoNet, hf.padA, hf.padB, hf.nowA, hf.nowB⟩
  have h := fun chk => C85_handshake_agrees hP chk true false (by simp) { a with sk := sk' } b ra rb hf' rest []
  let T := specTranscript P { a with sk := sk' } b ra rb
  refine ⟨T.message1, T.message2, T.message3, ⟨T.keyAB, T.keyBA, ⟨specSip T.sipAB, specSip T.sipBA⟩⟩, fun chk => ?_, (h true).2⟩
  have := (h chk).1
  rwa [List.append_nil] at this

/-! ## C88 -/

/-- The AEAD removes its 16-byte tag. -/
def Aead.Strict (A : Aead) : Prop := ∀ k n ad c p, A.dec k n ad c = some p → c.length = p.length + 16

theorem bind_ne_panic {α β : Type} {x : Ssu2.Res α} {f : α → Ssu2.Res β} (hx : x ≠ .panic) (hf : ∀ a, x = .ok a → f a ≠ .panic) :
    (x >>= f) ≠ .panic := by
  cases x with
  | ok a => exact hf a rfl
  | err => simp [bind, Ssu2.Res.bind]
  | panic => exact absurd rfl hx

theorem of_ne_panic {α : Type} (x : Option α) : Ssu2.Res.of x ≠ .panic := by cases x <;> simp [Ssu2.Res.of]

theorem readExact_ok {n : Nat} {s a b : Bytes} (h : readExact n s = .ok (a, b)) : a.length = n := by
  simp only [readExact] at h
  split at h
  · simp only [Ssu2.Res.ok.injEq, Prod.mk.injEq] at h
    rw [← h.1, List.length_take]; omega
  · cases h

theorem readExact_ne_panic (n : Nat) (s : Bytes) : readExact n s ≠ .panic := by
  simp only [readExact]; split <;> simp

/-- C88: whatever a peer sends, accepting it does not panic. -/
theorem C88_accept_never_panics {P : HsPrims} (hA : P.A.Strict) (me : HsSelf) (stream : Bytes) (r : HsRnd) :
    acceptSession P me stream r ≠ .panic := by
  refine bind_ne_panic (readExact_ne_panic _ _) fun ⟨m1, s1⟩ h1 => ?_
  refine bind_ne_panic ?_ fun ⟨st, n⟩ h2 => ?_
  · have := readExact_ok h1
    simp only [Responder.new]
    rw [if_neg (by omega)]
    split
    · simp
    · refine bind_ne_panic (of_ne_panic _) fun _ _ => ?_
      refine bind_ne_panic (of_ne_panic _) fun _ _ => ?_
      split
      · simp
      · split <;> simp [pure]
  · refine bind_ne_panic (readExact_ne_panic _ _) fun ⟨pad, s2⟩ h3 => ?_
    refine bind_ne_panic ?_ fun ⟨st', m2, n'⟩ h4 => ?_
    · simp only [Responder.createSession]
      split
      · exact bind_ne_panic (of_ne_panic _) fun _ _ => by simp [pure]
      · simp
    · refine bind_ne_panic (readExact_ne_panic _ _) fun ⟨m3, s3⟩ h5 => ?_
      have hn : 48 ≤ n' := by
        simp only [Responder.createSession] at h4
        split at h4
        · obtain ⟨_, -, h4⟩ := bind_ok h4
          have := Ssu2.Res.ok.inj h4
          simp only [Prod.mk.injEq] at this
          omega
        · cases h4
      have hm := readExact_ok h5
      refine bind_ne_panic ?_ fun ⟨k, info⟩ _ => ?_
      · simp only [Responder.finalize]
        split
        · rw [if_neg (by omega)]
          refine bind_ne_panic (of_ne_panic _) fun pk hpk => ?_
          rename_i esk lk noise
          rw [dec1_eq] at hpk
          have hl : pk.length = 32 := by
            cases hd : P.A.dec lk nonce1 noise.state (m3.take 48) with
            | none => rw [hd] at hpk; cases hpk
            | some p =>
              rw [hd, of_some] at hpk
              have h2 := hA _ _ _ _ _ hd
              rw [← Ssu2.Res.ok.inj hpk]
              rw [List.length_take] at h2
              omega
          rw [if_neg (by omega)]
          refine bind_ne_panic (of_ne_panic _) fun _ _ => ?_
          exact bind_ne_panic (of_ne_panic _) fun _ _ => by simp [pure]
        · simp
      · dsimp only
        split <;> simp [pure]

/-- C88: nor does dialling, whatever the peer answers, unless the router's own router info has 65,516 bytes or more. -/
theorem C88_dial_never_panics_partial (P : HsPrims) (chk allow : Bool) (me : HsSelf) (to : HsRemote) (stream : Bytes) (r : HsRnd)
    (hi : me.info.length < 65516) : createSession P chk allow me to stream r ≠ .panic := by
  have hadd : ∀ k, k ≤ 20 → add16 chk (me.info.length % 65536) k ≠ .panic := by
    intro k hk
    rw [add16, Nat.mod_eq_of_lt (by omega), if_pos (by omega)]; simp
  refine bind_ne_panic (of_ne_panic _) fun pk _ => ?_
  refine bind_ne_panic (of_ne_panic _) fun iv _ => ?_
  refine bind_ne_panic (of_ne_panic _) fun loc _ => ?_
  split
  · simp
  · refine bind_ne_panic ?_ fun ⟨st, m1⟩ h1 => ?_
    · refine bind_ne_panic (hadd 20 (by omega)) fun _ _ => ?_
      exact bind_ne_panic (of_ne_panic _) fun _ _ => by simp [pure]
    · obtain ⟨esk, iv', noise, hash, hst⟩ : ∃ esk iv' noise hash, st = .sessionRequested esk iv' me.info me.sk noise hash := by
        obtain ⟨_, -, h1⟩ := bind_ok h1
        obtain ⟨_, -, h1⟩ := bind_ok h1
        have := Ssu2.Res.ok.inj h1
        simp only [Prod.mk.injEq] at this
        exact ⟨_, _, _, _, this.1.symm⟩
      refine bind_ne_panic (readExact_ne_panic _ _) fun ⟨m2, s2⟩ h2 => ?_
      have := readExact_ok h2
      refine bind_ne_panic ?_ fun ⟨st', n⟩ h3 => ?_
      · simp only [hst, Initiator.created]
        rw [if_neg (by omega)]
        split
        · simp
        · refine bind_ne_panic (of_ne_panic _) fun _ _ => ?_
          exact bind_ne_panic (of_ne_panic _) fun _ _ => by simp [pure]
      · obtain ⟨noise', k, y, hst'⟩ : ∃ noise' k y, st' = .sessionCreated me.info me.sk noise' k y := by
          simp only [hst, Initiator.created] at h3
          rw [if_neg (by omega)] at h3
          split at h3
          · cases h3
          · obtain ⟨_, -, h3⟩ := bind_ok h3
            obtain ⟨_, -, h3⟩ := bind_ok h3
            have := Ssu2.Res.ok.inj h3
            simp only [Prod.mk.injEq] at this
            exact ⟨_, _, _, this.1.symm⟩
        refine bind_ne_panic (readExact_ne_panic _ _) fun ⟨pad, s3⟩ _ => ?_
        refine bind_ne_panic ?_ fun _ _ => by simp [pure]
        simp only [hst', Initiator.finalize]
        refine bind_ne_panic (of_ne_panic _) fun _ _ => ?_
        refine bind_ne_panic (hadd 1 (by omega)) fun _ _ => ?_
        exact bind_ne_panic (of_ne_panic _) fun _ _ => by simp [pure]

/-- C88 (violated): with overflow checks, dialling anyone panics when the router's own router info has 65,516 to 65,535 bytes. -/
theorem C88_large_router_info_panics_violated (P : HsPrims) (me : HsSelf) (b : HsSelf) (isLocal : Bool) (stream : Bytes) (r : HsRnd)
    (h1 : 65516 ≤ me.info.length) (h2 : me.info.length < 65536) :
    createSession P true true me (b.published P isLocal) stream r = .panic := by
  have : add16 true (me.info.length % 65536) 20 = .panic := by
    rw [add16, Nat.mod_eq_of_lt h2, if_neg (by omega), if_pos rfl]
  simp only [createSession, HsSelf.published, of_some, ok_bind]
  rw [if_neg (by simp)]
  simp only [Initiator.new, this]
  rfl

/-! ## C89 -/

/-- C89 (violated): the time in a request is not looked at, nor is it remembered that a request was seen: for every clock `rb.now` of the responder
and every time `t` at which the request was made, the request is answered, as often as it is presented (the answer depends on what the responder
draws and on nothing else). -/
theorem C89_stale_request_answered_violated {P : HsPrims} (hP : P.Lawful) (b : HsSelf) (hiv : b.iv.length = 16) (hn : b.netId < 256) (esk : Bytes)
    (pad m3 t : Nat) (h3 : pad < 65536) (h4 : m3 < 65536) (h5 : t < 2 ^ 32) (padding : Bytes) (rb : HsRnd) (hp : rb.padding.length = 32)
    (hnow : rb.now < 2 ^ 32) :
    ∃ st st' m2, Responder.new P (inboundStart P b.sk) b.hash b.sk b.iv (requestFor P b esk b.netId 2 pad m3 t) b.netId = .ok (st, pad) ∧
      Responder.createSession P st padding rb = .ok (st', m2, 48 + m3) ∧ m2.length = 96 := by
  have e1 : be 1 2 = [2] := by decide +kernel
  have lx : (Tunnel.cbcEnc P.aes b.hash b.iv (P.pub esk)).length = 32 := HsPrims.cbc_len hP _ _ _ hiv (hP.pub _)
  have e2 := responder_new_eq hP (inboundStart P b.sk) b.hash b.sk b.iv (P.pub esk) _ b.netId pad m3 t (hP.pub _) hiv hn h3 h4 h5 rfl
  dsimp only at e2
  rw [NoiseCtx.mixKey_comm hP] at e2
  have e3 := createSession_eq hP (P.pub esk) ((Tunnel.cbcEnc P.aes b.hash b.iv (P.pub esk)).drop 16) b.hash m3 (NoiseCtx.mixHash P (NoiseCtx.mixKey P ((inboundStart P b.sk).mixHash P (P.pub esk)) esk (P.pub b.sk)).2 (P.A.enc (NoiseCtx.mixKey P ((inboundStart P b.sk).mixHash P (P.pub esk)) esk (P.pub b.sk)).1 nonce0 (NoiseCtx.mixKey P ((inboundStart P b.sk).mixHash P (P.pub esk)) esk (P.pub b.sk)).2.state (specOptions1 b.netId pad m3 t))) padding rb (by simp [lx]) hp hnow
  refine ⟨_, _, _, ?_, e3, ?_⟩
  · rw [← e2]
    simp only [requestFor, e1]
    rfl
  · simp only [List.length_append, hp, hP.aead.len]
    rw [HsPrims.cbc_len hP _ _ _ (by simp [lx]) (hP.pub _)]
    simp [specOptions2]

/-! ## Non-vacuity -/

/-- Toy primitives. -/
def toyHs : HsPrims where
  H := { sip := fun a b c => a + 3 * b + c.length, hmac := fun k d => List.replicate 32 (k.foldl (· + ·) 5 ^^^ d.foldl (· + ·) 9) }
  A := toyA
  sha b := [b.foldl (· + ·) 1]
  dh a b := [a.headD 0 + b.headD 0]
  pub a := a.headD 0 :: List.replicate 31 0
  aes := Tunnel.toyAes
  netId b := if b.length = 4 then some 2 else none

theorem toyHs_lawful : toyHs.Lawful := by
  refine ⟨toyA_lawful, ?_, fun a b => by simp [toyHs, UInt8.add_comm], fun a => by simp [toyHs]⟩
  refine ⟨?_, ?_, ?_, ?_⟩ <;> intro k b h <;> simp [toyHs, Tunnel.toyAes, h]
  · exact List.map_id'' (fun x => by simp) b
  · exact List.map_id'' (fun x => by simp) b

def toyAlice : HsSelf := ⟨[5], List.replicate 16 1, 2, [1, 2, 3, 4], List.replicate 32 8⟩
def toyBob : HsSelf := ⟨[6], List.replicate 16 2, 2, [4, 3, 2, 1], List.replicate 32 9⟩
def toyRnd (n : Nat) : HsRnd := ⟨[UInt8.ofNat n], List.replicate 32 (UInt8.ofNat n), 1000 + n⟩

example : HsFit toyHs toyAlice toyBob (toyRnd 3) (toyRnd 7) := by
  refine ⟨?_, ?_, ?_, ?_, ?_, ?_, ?_, ?_, ?_⟩ <;> decide +kernel

/-- The toy handshake runs, with different keys in the two directions. -/
example : (match acceptSession toyHs toyBob ((specTranscript toyHs toyAlice toyBob (toyRnd 3) (toyRnd 7)).message1 ++
      ((specTranscript toyHs toyAlice toyBob (toyRnd 3) (toyRnd 7)).message3 ++ [1])) (toyRnd 7) with
    | .ok (_, k, info, rest) => decide (k.sendKey ≠ k.recvKey ∧ info = [1, 2, 3, 4] ∧ rest = [1])
    | _ => false) = true := by decide +kernel

end Emissary.Ntcp2
