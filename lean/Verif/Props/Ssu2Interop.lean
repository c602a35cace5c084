import Verif.Props.Ssu2Handshake
/-!
# C276: SSU2 with other implementations

The packets of a handshake as the SSU2 specification has them, for payloads of any blocks.
-/
namespace Emissary.Ssu2
open Emissary Emissary.I2np Emissary.Ntcp2

/-! ## Specification -/

/-- Header protection: the first eight bytes of the header are masked with the first key and the bytes 24 to 12 before the end of the packet, the second
eight bytes with the second key and the last 12 bytes, and the rest of the header with the second key and zeros. -/
def protect (C : Crypto) (k1 k2 header body : Bytes) : Bytes :=
  let xor (a b : Bytes) : Bytes := List.zipWith (· ^^^ ·) a b
  let before (n : Nat) : Bytes := (body.drop (body.length - n)).take 12
  xor (header.take 8) (C.ks k1 (before 24) 8) ++ xor ((header.drop 8).take 8) (C.ks k2 (before 12) 8) ++
    xor (header.drop 16) (C.ks k2 (List.replicate 12 0) (header.length - 16)) ++ body

/-- A long header: connection id of the receiver, packet number, type, version 2, network 2, a zero, connection id of the sender, token. -/
def header (ty to num from_ : Nat) (token : Bytes) : Bytes := le 8 to ++ be 4 num ++ be 1 ty ++ [2, 2, 0] ++ le 8 from_ ++ token

/-- The token request and the retry: encrypted with the intro key of the responder. -/
def unkeyed (C : Crypto) (intro : Bytes) (ty to num from_ : Nat) (token payload : Bytes) : Bytes :=
  protect C intro intro (header ty to num from_ token) (C.seal intro num (header ty to num from_ token) payload)

/-- What a handshake is made of: the responder's static key and intro key, both ephemeral keys, the initiator's static key, the Diffie-Hellman results, the
connection ids, the packet numbers, the token and the three payloads. -/
structure Talk where
  bob : Bytes
  intro : Bytes
  e : Bytes
  f : Bytes
  s : Bytes
  es : Bytes
  ee : Bytes
  se : Bytes
  dst : Nat
  src : Nat
  n1 : Nat
  n2 : Nat
  token : Bytes
  p1 : Bytes
  p2 : Bytes
  p3 : Bytes

/-- The cipher key after a further Diffie-Hellman result. -/
def cipherKey (P : Prims) (before : List Bytes) (result : Bytes) : Bytes := (hkdf64 P (chain P before) result []).2

/-- The handshake hash: of the name, of an empty prologue, of the responder's static key and of what was sent. -/
def Talk.hash (P : Prims) (t : Talk) (sent : List Bytes) : Bytes :=
  sent.foldl (fun h x => P.sha (h ++ x))
    (P.sha (P.sha (P.sha "Noise_XKchaobfse+hs1+hs2+hs3_25519_ChaChaPoly_SHA256".toUTF8.toList) ++ t.bob))

/-- `SessionRequest`. -/
def Talk.header1 (t : Talk) : Bytes := header 0 t.dst t.n1 t.src t.token
def Talk.body1 (P : Prims) (t : Talk) : Bytes := P.seal (cipherKey P [] t.es) 0 (t.hash P [t.header1, t.e]) t.p1
def Talk.request (P : Prims) (t : Talk) : Bytes := protect P.toCrypto t.intro t.intro (t.header1 ++ t.e) (t.body1 P)

/-- `SessionCreated`. -/
def Talk.header2 (t : Talk) : Bytes := header 1 t.src t.n2 t.dst (be 8 0)
def Talk.body2 (P : Prims) (t : Talk) : Bytes :=
  P.seal (cipherKey P [t.es] t.ee) 0 (t.hash P [t.header1, t.e, t.body1 P, t.header2, t.f]) t.p2
def Talk.created (P : Prims) (t : Talk) : Bytes :=
  protect P.toCrypto t.intro (specHeaderKey P [t.es] "SessCreateHeader") (t.header2 ++ t.f) (t.body2 P)

/-- `SessionConfirmed`: the header with packet number 0, type 2, fragment 0 of 1. -/
def Talk.header3 (t : Talk) : Bytes := le 8 t.dst ++ be 4 0 ++ [2, 1, 0, 0]
def Talk.sent (P : Prims) (t : Talk) : List Bytes := [t.header1, t.e, t.body1 P, t.header2, t.f, t.body2 P, t.header3]
def Talk.static (P : Prims) (t : Talk) : Bytes := P.seal (cipherKey P [t.es] t.ee) 1 (t.hash P (t.sent P)) t.s
def Talk.body3 (P : Prims) (t : Talk) : Bytes := P.seal (cipherKey P [t.es, t.ee] t.se) 0 (t.hash P (t.sent P ++ [t.static P])) t.p3
def Talk.confirmed (P : Prims) (t : Talk) : Bytes :=
  protect P.toCrypto t.intro (specHeaderKey P [t.es, t.ee] "SessionConfirmed") t.header3 (t.static P ++ t.body3 P)

/-- The keys of the data phase, initiator to responder first. -/
def Talk.keys (P : Prims) (t : Talk) : KeyCtx × KeyCtx := specDataKeys P [t.es, t.ee, t.se]

/-- Payloads that are understood: any sequence of blocks, of the types that the code knows (C38) and of those that it passes over. -/
def Understood (valid : Bytes → Bool) (x : Bytes × Block) : Prop :=
  (∃ b : Block, b.Ok valid ∧ x = (b.wire, b.seen)) ∨
    ∃ (ty : Nat) (body : Bytes), ty ∈ [7, 8, 9, 10, 11, 13, 15, 16] ∧ body.length < 65536 ∧ x = (be 1 ty ++ be 2 body.length ++ body, .unsupported)

/-- The bytes of such a payload. -/
def payloadOf (xs : List (Bytes × Block)) : Bytes := (xs.map (·.1)).flatten

/-! ## Lemmas -/

theorem header_long (ty to num from_ : Nat) (token : Bytes) : header ty to num from_ token = longHeader to num ty from_ token := by
  have : ([2, 2, 0] : Bytes) = be 1 2 ++ (be 1 2 ++ be 1 0) := by decide
  simp only [header, longHeader, this, List.append_assoc]

theorem header3_eq (t : Talk) : t.header3 = confirmedHeader t.dst := by
  have : ([2, 1, 0, 0] : Bytes) = be 1 2 ++ (be 1 1 ++ be 2 0) := by decide
  simp only [Talk.header3, confirmedHeader, this, List.append_assoc]

theorem protect_eq {C : Crypto} (k1 k2 a b t p : Bytes) (ha : a.length = 8) (hb : b.length = 8) (hp : 24 ≤ p.length) :
    protect C k1 k2 (a ++ (b ++ t)) p = xr a (C.ks k1 (iv1 p) 8) ++ (xr b (C.ks k2 (iv2 p) 8) ++ (xr t (C.ks k2 zeroIv t.length) ++ p)) := by
  have h1 : (a ++ (b ++ t)).take 8 = a := List.take_left' ha
  have h2 : ((a ++ (b ++ t)).drop 8).take 8 = b := by rw [List.drop_left' ha, List.take_left' hb]
  have h3 : (a ++ (b ++ t)).drop 16 = t := by rw [← List.append_assoc, List.drop_left' (by simp [ha, hb])]
  have h4 : (a ++ (b ++ t)).length - 16 = t.length := by simp only [List.length_append]; omega
  have h5 : (p.drop (p.length - 12)).take 12 = p.drop (p.length - 12) := List.take_of_length_le (by simp; omega)
  simp only [protect, h1, h2, h3, h4, h5, iv1, iv2, zeroIv, List.append_assoc]

theorem unkeyed_eq {C : Crypto} (hC : C.Lawful) (intro : Bytes) (ty to num from_ : Nat) (token payload : Bytes) (hp : 8 ≤ payload.length) :
    let p := C.seal intro num (longHeader to num ty from_ token) payload
    24 ≤ p.length ∧ unkeyed C intro ty to num from_ token payload =
      xr (le 8 to) (C.ks intro (iv1 p) 8) ++ (xr (half2 num ty 2 2 0) (C.ks intro (iv2 p) 8) ++ (xr (le 8 from_ ++ token) (C.ks intro zeroIv (8 + token.length)) ++ p)) := by
  intro p
  have h : 24 ≤ p.length := by rw [seal_len hC]; omega
  refine ⟨h, ?_⟩
  rw [unkeyed, header_long, long_eq, protect_eq _ _ _ _ _ _ (le_len ..) (half2_length ..) (by rw [← long_eq]; exact h), ← long_eq, List.length_append, le_len]

/-- The retry is made as the specification says. -/
theorem retry_spec {C : Crypto} (hC : C.Lawful) (intro : Bytes) (dst src token n now : Nat) (addr : SockAddr) (padding : Bytes) :
    buildRetry C intro dst src token n now addr padding = .ok (unkeyed C intro 9 dst n src (be 8 token) (timeAddressPadding now addr padding)) := by
  rw [buildRetry_eq hC, (unkeyed_eq hC intro 9 dst n src (be 8 token) _ (by have := timeAddressPadding_len now addr padding; omega)).2]
  simp

/-- … and so is the token request. -/
theorem tokenRequest_spec {C : Crypto} (hC : C.Lawful) (intro : Bytes) (dst src n now : Nat) (padding : Bytes) :
    buildTokenRequest C intro dst src n now padding = .ok (unkeyed C intro 10 dst n src (be 8 0) (timePadding now padding)) := by
  obtain ⟨hp, e⟩ := unkeyed_eq hC intro 10 dst n src (be 8 0) (timePadding now padding) (by have := timePadding_len now padding; omega)
  rw [e]
  generalize hpe : C.seal intro n (longHeader dst n 10 src (be 8 0)) (timePadding now padding) = p at hp
  have ht : (le 8 src ++ be 8 0).length = 16 := by simp [le_len]
  have e := obfuscate_eq hC intro intro (le 8 dst) (half2 n 10 2 2 0) (le 8 src ++ be 8 0) p (le_len ..) (half2_length ..) hp
  simp only [buildTokenRequest]
  rw [hpe, long_eq, e, ok_bind, maskTail_eq hC _ 16 _ _ _ (by rw [xr_length _ _ (by rw [le_len, hC.ks]), le_len])
    (by rw [xr_length _ _ (by rw [half2_length, hC.ks]), half2_length]) ht]
  simp [pure, List.append_assoc]

/-- Any token request reaches a new session. -/
theorem tokenRequest_routed {C : Crypto} (hC : C.Lawful) (chk : Bool) (intro : Bytes) (dst src n : Nat) (payload : Bytes) (hl : 8 ≤ payload.length) (hn : n < 2 ^ 32)
    (hd : dst < 2 ^ 64) (hs : src < 2 ^ 64) (sessions : Nat → Option Unit) (pending : Option Bytes) (hfree : sessions dst = none) :
    route C chk intro sessions pending (unkeyed C intro 10 dst n src (be 8 0) payload) =
      .inbound dst src n (longHeader dst n 10 src (be 8 0) ++ C.seal intro n (longHeader dst n 10 src (be 8 0)) payload) := by
  obtain ⟨hp, e⟩ := unkeyed_eq hC intro 10 dst n src (be 8 0) payload hl
  rw [e]
  generalize C.seal intro n (longHeader dst n 10 src (be 8 0)) payload = p at hp
  have ht : (le 8 src ++ be 8 0).length = 16 := by simp [le_len]
  rw [route, new_eq _ _ (by simp only [List.length_append]; omega)]
  simp only [iv1_3 _ _ _ _ hp, iv2_3 _ _ _ _ hp]
  rw [dstId_eq hC _ _ _ _ _ (le_len ..), unle_le8 _ hd]
  simp only [hfree, be_length]
  have := (parse_long hC intro intro (iv1 p) (iv2 p) (le 8 dst) (le 8 src ++ be 8 0) p n 10 2 (le_len ..) hn (by decide)).2.2.2 rfl ht
  rw [this]
  simp only [List.take_left' (le_len 8 src), unle_le8 _ hs, long_eq, List.append_assoc]

/-- Any retry is read. -/
theorem retry_any {C : Crypto} (hC : C.Lawful) (intro : Bytes) (dst src n : Nat) (token payload : Bytes) (hl : 8 ≤ payload.length) (hn : n < 2 ^ 32) (ht : token.length = 8) :
    reparse C intro intro (unmasked C intro (unkeyed C intro 9 dst n src token payload)) =
        .ok (.retry 2 n (unle token), longHeader dst n 9 src token ++ C.seal intro n (longHeader dst n 9 src token) payload) := by
  obtain ⟨hp, e⟩ := unkeyed_eq hC intro 9 dst n src token payload hl
  rw [e]
  generalize C.seal intro n (longHeader dst n 9 src token) payload = p at hp
  have hu := unmasked_eq hC intro (le 8 dst) (xr (half2 n 9 2 2 0) (C.ks intro (iv2 p) 8) ++ xr (le 8 src ++ token) (C.ks intro zeroIv (8 + token.length))) p (le_len ..) hp
  simp only [List.append_assoc, ht] at hu ⊢
  rw [hu]
  have := (parse_long hC intro intro (iv1 p) (iv2 p) (le 8 dst) (le 8 src ++ token) p n 9 2 (le_len ..) hn (by decide)).2.2.1 rfl (by simp [le_len, ht])
  rw [reparse_eq (k := .retry 2 n (unle token)) (s := ⟨intro, iv1 p, iv2 p, le 8 dst ++ (half2 n 9 2 2 0 ++ ((le 8 src ++ token) ++ p))⟩)]
  · simp only [long_eq, List.append_assoc]
  · simp only [List.length_append, le_len]; omega
  · rw [iv1_3 _ _ _ _ hp, iv2_3 _ _ _ _ hp, this, List.drop_left' (le_len ..)]

/-- The packets with a key in the header. -/
theorem finish_spec {C : Crypto} (hC : C.Lawful) (k1 k2 : Bytes) (dst n ty : Nat) (t p : Bytes) (ht : t.length = 48) (hp : 24 ≤ p.length) :
    Handshake.finish C ⟨le 8 dst ++ (half2 n ty 2 2 0 ++ t), p⟩ k1 k2 = .ok (protect C k1 k2 (le 8 dst ++ (half2 n ty 2 2 0 ++ t)) p) := by
  have e := obfuscate_eq hC k1 k2 (le 8 dst) (half2 n ty 2 2 0) t p (le_len ..) (half2_length ..) hp
  rw [protect_eq _ _ _ _ _ _ (le_len ..) (half2_length ..) hp]
  simp only [Handshake.finish, e, ok_bind]
  rw [maskTail_eq hC _ 48 _ _ _ (by rw [xr_length _ _ (by rw [le_len, hC.ks]), le_len])
    (by rw [xr_length _ _ (by rw [half2_length, hC.ks]), half2_length]) ht, ht]
  simp [pure, List.append_assoc]

theorem keyed_read {C : Crypto} (hC : C.Lawful) (k1 k2 : Bytes) (dst n ty : Nat) (t p : Bytes) (ht : t.length = 48) (hp : 24 ≤ p.length) (hn : n < 2 ^ 32) :
    let pkt := protect C k1 k2 (le 8 dst ++ (half2 n ty 2 2 0 ++ t)) p
    (ty = 0 → reparse C k1 k2 (unmasked C k1 pkt) = .ok (.sessionRequest (t.drop 16) 2 n (unle (slice t 8 16)), le 8 dst ++ (half2 n ty 2 2 0 ++ (t ++ p)))) ∧
    (ty = 1 → reparse C k1 k2 (unmasked C k1 pkt) = .ok (.sessionCreated (t.drop 16) 2 n, le 8 dst ++ (half2 n ty 2 2 0 ++ (t ++ p)))) := by
  obtain ⟨pkt, e1, _, e2, e3⟩ := finish_eq hC k1 k2 dst n ty t p ht hp hn
  rw [finish_spec hC k1 k2 dst n ty t p ht hp] at e1
  injection e1 with e1
  subst e1
  exact ⟨e2, e3⟩

theorem confirmed_spec {C : Crypto} (hC : C.Lawful) (k1 k2 : Bytes) (dst : Nat) (ek p : Bytes) (hp : 24 ≤ p.length) :
    finishConfirmed C dst k1 k2 ek p = .ok (protect C k1 k2 (confirmedHeader dst) (ek ++ p)) ∧
    reparse C k1 k2 (unmasked C k1 (protect C k1 k2 (confirmedHeader dst) (ek ++ p))) = .ok (.sessionConfirmed 0, confirmedHeader dst ++ (ek ++ p)) := by
  have hh : confirmedHeader dst = le 8 dst ++ (half2 0 2 1 0 0 ++ []) := by
    have : be 2 0 = be 1 0 ++ be 1 0 := by decide
    simp only [confirmedHeader, half2, List.append_assoc, this, List.append_nil]
  have e := obfuscate_eq hC k1 k2 (le 8 dst) (half2 0 2 1 0 0) [] p (le_len ..) (half2_length ..) hp
  have h1 : finishConfirmed C dst k1 k2 ek p = .ok (protect C k1 k2 (confirmedHeader dst) (ek ++ p)) := by
    rw [hh, protect_eq _ _ _ _ _ _ (le_len ..) (half2_length ..) (by simp; omega), iv1_append _ _ hp, iv2_append _ _ (by omega)]
    simp only [finishConfirmed, hh, e, ok_bind]
    simp [pure, xr]
  obtain ⟨pkt, e1, e2⟩ := confirmed_eq hC k1 k2 dst ek p hp
  rw [h1] at e1
  injection e1 with e1
  subst e1
  exact ⟨h1, e2⟩

theorem mix_spec (P : Prims) (before : List Bytes) (h sk pk : Bytes) :
    Noise.mixKey P ⟨chain P before, h⟩ sk pk = (cipherKey P before (P.dh sk pk), ⟨chain P (before ++ [P.dh sk pk]), h⟩) := by
  simp [Noise.mixKey, cipherKey, hkdf64, chain, List.foldl_append]

theorem headerKey_spec (P : Prims) (before : List Bytes) (s : String) : headerKey P (chain P before) s.toUTF8.toList = specHeaderKey P before s := rfl

theorem understood_read (chk : Bool) (valid : Bytes → Bool) (xs : List (Bytes × Block)) (hne : xs ≠ []) (h : ∀ x ∈ xs, Understood valid x) :
    parseBlocks chk valid (payloadOf xs) = .ok (xs.map (·.2)) := by
  refine (C38_accepts_exactly_block_sequences chk valid _ _).mpr ⟨xs, hne, rfl, rfl, fun x hx => ?_⟩
  rcases h x hx with ⟨b, hb, rfl⟩ | ⟨ty, body, hty, hbody, rfl⟩
  · have := parseBlock_wire chk valid b hb []
    rwa [List.append_nil] at this
  · have := (C38_other_types chk valid ty body [] (by simp only [List.mem_cons, List.not_mem_nil, or_false] at hty; omega) hbody).1 hty
    rwa [List.append_nil] at this

/-- One block that is an error makes the payload an error. -/
theorem bad_read (chk : Bool) (valid : Bytes → Bool) (xs : List (Bytes × Block)) (h : ∀ x ∈ xs, Understood valid x) (bad : Bytes) (hne : bad ≠ [])
    (hbad : parseBlock chk valid bad = .err) : parseBlocks chk valid (payloadOf xs ++ bad) = .err := by
  suffices hf : ∀ fuel, parseMultiple chk valid fuel (payloadOf xs ++ bad) = .err from hf _
  induction xs with
  | nil =>
    intro fuel
    cases fuel with
    | zero => rfl
    | succ fuel =>
      rw [parseMultiple, show payloadOf [] ++ bad = bad from rfl, hbad]
      rfl
  | cons x xs ih =>
    intro fuel
    cases fuel with
    | zero => rfl
    | succ fuel =>
      have hx : parseBlock chk valid (x.1 ++ (payloadOf xs ++ bad)) = .ok (x.2, payloadOf xs ++ bad) := by
        rcases h x (by simp) with ⟨b, hb, rfl⟩ | ⟨ty, body, hty, hbody, rfl⟩
        · exact parseBlock_wire chk valid b hb _
        · exact (C38_other_types chk valid ty body _ (by simp only [List.mem_cons, List.not_mem_nil, or_false] at hty; omega) hbody).1 hty
      have he : (payloadOf xs ++ bad).isEmpty = false := by
        rw [List.isEmpty_eq_false_iff]
        intro e
        exact hne (List.append_eq_nil_iff.mp e).2
      have hp : payloadOf (x :: xs) ++ bad = x.1 ++ (payloadOf xs ++ bad) := by simp [payloadOf]
      rw [hp, parseMultiple, hx, ok_bind]
      simp only [he, Bool.false_eq_true, if_false]
      rw [ih (fun y hy => h y (by simp [hy])) fuel]
      rfl

theorem create_label (P : Prims) (before : List Bytes) : headerKey P (chain P before) lblCreate = specHeaderKey P before "SessCreateHeader" := headerKey_spec ..
theorem confirmed_label (P : Prims) (before : List Bytes) : headerKey P (chain P before) lblConfirmed = specHeaderKey P before "SessionConfirmed" := headerKey_spec ..

theorem le_unle_len {b : Bytes} (h : b.length = 8) : le 8 (unle b) = b := by
  have h' := be_unbe b.reverse
  rw [List.length_reverse, h] at h'
  rw [le, unle, h', List.reverse_reverse]

theorem onRetry_spec {P : Prims} (hP : P.Lawful) (s : Outbound) (pkt : Bytes) (r : Rnd) {net n tok : Nat} {pkt' pl : Bytes} {K token : Bytes} {n1 : Noise}
    (h1 : reparse P.toCrypto s.introKey s.introKey pkt = .ok (.retry net n tok, pkt'))
    (h2 : P.unseal s.introKey n (pkt'.take 32) (pkt'.drop 32) = some pl)
    (hk : s.noise.mixKey P r.esk s.remoteStatic = (K, n1)) (ht : le 8 tok = token) :
    let hdr := header 0 s.dstId r.pktNum s.srcId token
    let n2 := (n1.mixHash P hdr).mixHash P (P.pub r.esk)
    let ct := P.seal K 0 n2.state (timePadding r.now r.padding)
    let out := protect P.toCrypto s.introKey s.introKey (hdr ++ P.pub r.esk) ct
    s.onRetry P pkt r = ({ s with noise := n2.mixHash P ct, state := .awaitingCreated r.esk, retransmit := some out }, .send out) := by
  subst ht
  rw [header_long]
  intro hdr n2 ct out
  have hl : hdr.length = 32 := longHeader_len _ _ _ _ _ (le_len ..)
  have hh : hdr ++ P.pub r.esk = le 8 s.dstId ++ (half2 r.pktNum 0 2 2 0 ++ ((le 8 s.srcId ++ le 8 tok) ++ P.pub r.esk)) := by
    simp only [hdr, long_eq, List.append_assoc]
  have hp : 24 ≤ ct.length := by
    simp only [ct, seal_len hP.crypto]; have := timePadding_len r.now r.padding; omega
  have e1 := finish_spec hP.crypto s.introKey s.introKey s.dstId r.pktNum 0 ((le 8 s.srcId ++ le 8 tok) ++ P.pub r.esk) ct (by simp [le_len, hP.pub]) hp
  rw [← hh] at e1
  simp only [Outbound.onRetry, h1, h2, hk, sessionRequest, Handshake.encPayload]
  have : (longHeader s.dstId r.pktNum 0 s.srcId (le 8 tok) ++ P.pub r.esk).take 32 = hdr := List.take_left' hl
  rw [this]
  change (match Handshake.finish P.toCrypto ⟨hdr ++ P.pub r.esk, ct⟩ s.introKey s.introKey with
    | .panic => _ | .err => _ | .ok out => _) = _
  rw [e1]

theorem onRequest_spec {P : Prims} (hP : P.Lawful) (chk : Bool) (s : Inbound) (pkt : Bytes) (r : Rnd) {net n tok : Nat}
    {hdr epk ct pl K K2 : Bytes} {bs : List Block} {n1 n5 : Noise}
    (h1 : reparse P.toCrypto s.introKey s.introKey pkt = .ok (.sessionRequest epk net n tok, hdr ++ (epk ++ ct)))
    (l1 : hdr.length = 32) (l2 : epk.length = 32) (hk : ((s.noise.mixHash P hdr).mixHash P epk).mixKey P s.staticSk epk = (K, n1))
    (h2 : P.unseal K 0 n1.state ct = some pl) (h3 : handshakeBlocks P chk pl = .ok bs) (hk2 : (n1.mixHash P ct).mixKey P r.esk epk = (K2, n5)) :
    let hdr2 := header 1 s.srcId r.pktNum s.dstId (be 8 0)
    let n4 := (n5.mixHash P hdr2).mixHash P (P.pub r.esk)
    let ct2 := P.seal K2 0 n4.state (timeAddressPadding r.now s.address r.padding)
    let out := protect P.toCrypto s.introKey (headerKey P n1.ck lblCreate) (hdr2 ++ P.pub r.esk) ct2
    s.onRequest P chk pkt r =
        ({ s with noise := n4.mixHash P ct2, state := .awaitingConfirmed r.esk (headerKey P n5.ck lblConfirmed) K2, retransmit := some out }, .send out) := by
  rw [header_long]
  intro hdr2 n4 ct2 out
  obtain ⟨c1, c2, c3⟩ := cut hdr epk ct l1 l2
  have hl : hdr2.length = 32 := longHeader_len _ _ _ _ _ (by simp)
  have hh : hdr2 ++ P.pub r.esk = le 8 s.srcId ++ (half2 r.pktNum 1 2 2 0 ++ ((le 8 s.dstId ++ be 8 0) ++ P.pub r.esk)) := by
    simp only [hdr2, long_eq, List.append_assoc]
  have hp : 24 ≤ ct2.length := by
    simp only [ct2, seal_len hP.crypto]; have := timeAddressPadding_len r.now s.address r.padding; omega
  have e1 := finish_spec hP.crypto s.introKey (headerKey P n1.ck lblCreate) s.srcId r.pktNum 1
    ((le 8 s.dstId ++ be 8 0) ++ P.pub r.esk) ct2 (by simp [le_len, hP.pub]) hp
  rw [← hh] at e1
  simp only [Inbound.onRequest, h1, c1, c2, c3, hk, h2, h3, hk2, sessionCreated, Handshake.encPayload]
  have : (longHeader s.srcId r.pktNum 1 s.dstId (be 8 0) ++ P.pub r.esk).take 32 = hdr2 := List.take_left' hl
  rw [this]
  change (match Handshake.finish P.toCrypto ⟨hdr2 ++ P.pub r.esk, ct2⟩ s.introKey (headerKey P n1.ck lblCreate) with
    | .panic => _ | .err => _ | .ok out => _) = _
  rw [e1]
  rfl

theorem onCreated_spec {P : Prims} (hP : P.Lawful) (s : Outbound) (esk pkt : Bytes) {net n : Nat} {hdr2 hdr3 epk ct2 pl K2 K3 ek : Bytes} {n2 n3 : Noise}
    (h1 : reparse P.toCrypto s.introKey (headerKey P s.noise.ck lblCreate) pkt = .ok (.sessionCreated epk net n, hdr2 ++ (epk ++ ct2)))
    (l1 : hdr2.length = 32) (l2 : epk.length = 32) (l3 : 3 ≤ s.localInfo.length) (hk : ((s.noise.mixHash P hdr2).mixHash P epk).mixKey P esk epk = (K2, n2))
    (h2 : P.unseal K2 0 n2.state ct2 = some pl) (hh : confirmedHeader s.dstId = hdr3)
    (he : P.seal K2 1 ((n2.mixHash P ct2).mixHash P hdr3).state (P.pub s.localSk) = ek)
    (hk3 : (((n2.mixHash P ct2).mixHash P hdr3).mixHash P ek).mixKey P s.localSk epk = (K3, n3)) :
    let ep := P.seal K3 0 n3.state (confirmedPayload s.localInfo)
    let out := protect P.toCrypto s.introKey (headerKey P n2.ck lblConfirmed) hdr3 (ek ++ ep)
    s.onCreated P esk pkt = ({ s with noise := n3, state := .awaitingAck, retransmit := some out }, .send out) := by
  subst hh
  intro ep out
  obtain ⟨c1, c2, c3⟩ := cut hdr2 epk ct2 l1 l2
  have hp : 24 ≤ ep.length := by
    simp only [ep, seal_len hP.crypto, confirmedPayload, List.length_append, be_length]; omega
  have e1 := (confirmed_spec hP.crypto s.introKey (headerKey P n2.ck lblConfirmed) s.dstId ek ep hp).1
  simp only [Outbound.onCreated, h1, c1, c2, c3, hk, h2, he, hk3]
  change (match finishConfirmed P.toCrypto s.dstId s.introKey (headerKey P n2.ck lblConfirmed) ek ep with
    | .panic => _ | .err => _ | .ok out => _) = _
  rw [e1]

/-! ## C276: dialling -/

/-- The handshake of a router that dials: what it draws, and what the responder chooses (token, ephemeral key, packet number, payload). -/
def dialled (P : Prims) (me : Self) (to : Remote) (dst src : Nat) (r : Rnd) (token f : Bytes) (n2 : Nat) (p2 : Bytes) : Talk :=
  { bob := to.static, intro := to.intro, e := P.pub r.esk, f, s := P.pub me.sk
    es := P.dh r.esk to.static, ee := P.dh r.esk f, se := P.dh me.sk f
    dst, src, n1 := r.pktNum, n2, token, p1 := timePadding r.now r.padding, p2, p3 := confirmedPayload me.info }

/-- C276: a router that dials another implementation sends the packets of the specification, and every retry and `SessionCreated` of the specification, with
any token, any payload and any packet number, takes it on; whatever comes next, it has the keys of the specification. -/
theorem C276_dialling {P : Prims} (hP : P.Lawful) (chk : Bool) (me : Self) (to : Remote) (dst src : Nat) (hi : 3 ≤ me.info.length)
    (r : Nat → Rnd) (n0 : Nat) (hn0 : n0 < 2 ^ 32) (p0 : Bytes) (hp0 : 8 ≤ p0.length)
    (token f : Bytes) (n2 : Nat) (p2 : Bytes) (ht : token.length = 8) (hf : f.length = 32) (hn2 : n2 < 2 ^ 32) (hp2 : 8 ≤ p2.length) :
    let t := dialled P me to dst src (r 1) token f n2 p2
    ∃ o0 o1 o2,
      connect P me to dst src (r 0) = .ok (o0, unkeyed P.toCrypto to.intro 10 dst (r 0).pktNum src (be 8 0) (timePadding (r 0).now (r 0).padding)) ∧
      o0.onPacket P chk (unmasked P.toCrypto to.intro (unkeyed P.toCrypto to.intro 9 src n0 dst token p0)) (r 1) = (o1, .send (t.request P)) ∧
      o1.onPacket P chk (unmasked P.toCrypto to.intro (t.created P)) (r 2) = (o2, .send (t.confirmed P)) ∧
      ∀ pkt, (o2.onPacket P chk pkt (r 3)).2 = .established ⟨to.address, dst, to.intro, (t.keys P).2, (t.keys P).1, me.id⟩ none := by
  intro t
  have hC := hP.crypto
  have l1 : t.header1.length = 32 := by rw [Talk.header1, header_long]; exact longHeader_len _ _ _ _ _ ht
  have l2 : t.header2.length = 32 := by rw [Talk.header2, header_long]; exact longHeader_len _ _ _ _ _ (by simp)
  have b1 : 24 ≤ (t.body1 P).length := by
    rw [Talk.body1, seal_len hC]; have := timePadding_len (r 1).now (r 1).padding; simp only [t, dialled]; omega
  have b2 : 24 ≤ (t.body2 P).length := by rw [Talk.body2, seal_len hC]; simp only [t, dialled]; omega
  have b3 : 24 ≤ (t.body3 P).length := by
    rw [Talk.body3, seal_len hC]; simp only [t, dialled, confirmedPayload, List.length_append, be_length]; omega
  -- connect
  obtain ⟨o0, c0⟩ : ∃ o0 : Outbound, o0 = ⟨to.address, dst, src, to.intro, to.static, me.sk, me.info, me.id, ⟨chain P [], t.hash P []⟩, .awaitingRetry,
      some (unkeyed P.toCrypto to.intro 10 dst (r 0).pktNum src (be 8 0) (timePadding (r 0).now (r 0).padding))⟩ := ⟨_, rfl⟩
  have s0 : connect P me to dst src (r 0) = .ok (o0, unkeyed P.toCrypto to.intro 10 dst (r 0).pktNum src (be 8 0) (timePadding (r 0).now (r 0).padding)) := by
    simp only [connect, Outbound.new, tokenRequest_spec hC, ok_bind, c0]; rfl
  -- the retry
  have hl9 : (longHeader src n0 9 dst token).length = 32 := longHeader_len _ _ _ _ _ ht
  have tok : le 8 (unle token) = token := le_unle_len ht
  obtain ⟨o1, c1⟩ : ∃ o1 : Outbound, o1 = ⟨to.address, dst, src, to.intro, to.static, me.sk, me.info, me.id,
      ⟨chain P [t.es], t.hash P [t.header1, t.e, t.body1 P]⟩, .awaitingCreated (r 1).esk, some (t.request P)⟩ := ⟨_, rfl⟩
  have s1 : o0.onPacket P chk (unmasked P.toCrypto to.intro (unkeyed P.toCrypto to.intro 9 src n0 dst token p0)) (r 1) = (o1, .send (t.request P)) := by
    rw [c0, c1]
    have := onRetry_spec hP ⟨to.address, dst, src, to.intro, to.static, me.sk, me.info, me.id, ⟨chain P [], t.hash P []⟩, .awaitingRetry,
      some (unkeyed P.toCrypto to.intro 10 dst (r 0).pktNum src (be 8 0) (timePadding (r 0).now (r 0).padding))⟩
      (unmasked P.toCrypto to.intro (unkeyed P.toCrypto to.intro 9 src n0 dst token p0)) (r 1) (pl := p0) (retry_any hC to.intro src dst n0 token p0 hp0 hn0 ht)
      (by rw [List.take_left' hl9, List.drop_left' hl9]; exact unseal_seal hC ..) (mix_spec P [] _ _ _) tok
    exact this
  -- `SessionCreated`
  obtain ⟨o2, c2⟩ : ∃ o2 : Outbound, o2 = ⟨to.address, dst, src, to.intro, to.static, me.sk, me.info, me.id,
      ⟨chain P [t.es, t.ee, t.se], t.hash P (t.sent P ++ [t.static P])⟩, .awaitingAck, some (t.confirmed P)⟩ := ⟨_, rfl⟩
  have s2 : o1.onPacket P chk (unmasked P.toCrypto to.intro (t.created P)) (r 2) = (o2, .send (t.confirmed P)) := by
    have hrd := (keyed_read hC to.intro (specHeaderKey P [t.es] "SessCreateHeader") src n2 1 ((le 8 dst ++ be 8 0) ++ f) (t.body2 P) (by simp [le_len, hf]) b2 hn2).2 rfl
    have hx : le 8 src ++ (half2 n2 1 2 2 0 ++ ((le 8 dst ++ be 8 0) ++ f)) = t.header2 ++ t.f := by
      rw [Talk.header2, header_long, long_eq]; simp only [List.append_assoc]; rfl
    have hy : le 8 src ++ (half2 n2 1 2 2 0 ++ (((le 8 dst ++ be 8 0) ++ f) ++ t.body2 P)) = t.header2 ++ (f ++ t.body2 P) := by
      rw [Talk.header2, header_long, long_eq]; simp only [List.append_assoc]; rfl
    rw [hx, hy, List.drop_left' (by simp [le_len])] at hrd
    rw [c1, c2]
    have := onCreated_spec hP ⟨to.address, dst, src, to.intro, to.static, me.sk, me.info, me.id,
      ⟨chain P [t.es], t.hash P [t.header1, t.e, t.body1 P]⟩, .awaitingCreated (r 1).esk, some (t.request P)⟩ (r 1).esk (unmasked P.toCrypto to.intro (t.created P))
      (ek := t.static P) (by rw [create_label]; exact hrd) l2 hf hi (mix_spec P [t.es] _ _ _) (unseal_seal hC ..)
      (header3_eq t).symm rfl (mix_spec P [t.es, t.ee] _ _ _)
    rw [confirmed_label] at this
    exact this
  refine ⟨o0, o1, o2, s0, s1, s2, ?_⟩
  intro pkt
  rw [c2]
  change (Outbound.onData P _ pkt).2 = _
  simp only [Outbound.onData, dataKeys_spec]
  rfl

theorem info_found (info : Bytes) (before after : List (Bytes × Block)) (hb : ∀ x ∈ before, ∀ i, x.2 ≠ .routerInfo i) :
    routerInfoOf ((before ++ ((Block.routerInfo info).wire, Block.routerInfo info) :: after).map (·.2)) = some info := by
  induction before with
  | nil => rfl
  | cons x xs ih =>
    have hx := hb x (by simp)
    have ih := ih fun y hy => hb y (by simp [hy])
    obtain ⟨w, bl⟩ := x
    simp only [List.cons_append, List.map_cons]
    cases bl with
    | routerInfo i => exact absurd rfl (hx i)
    | _ => exact ih

/-! ## C276: being dialled -/

/-- The handshake of a router that is dialled: what the initiator chooses (connection ids, packet number, keys, token, payloads), and what it draws itself. -/
def accepted (P : Prims) (b : Self) (addr : SockAddr) (dst src n1 : Nat) (e s token p1 p3 : Bytes) (r : Rnd) : Talk :=
  { bob := P.pub b.sk, intro := b.intro, e, f := P.pub r.esk, s, es := P.dh b.sk e, ee := P.dh r.esk e, se := P.dh r.esk s
    dst, src, n1, n2 := r.pktNum, token, p1, p2 := timeAddressPadding r.now addr r.padding, p3 }

/-- What the responder has done up to the `SessionConfirmed`. -/
theorem up_to_confirmed {P : Prims} (hP : P.Lawful) (chk : Bool) (b : Self) (addr : SockAddr) (sessions : Nat → Option Unit) (dst src n0 n1 : Nat)
    (hfree : sessions dst = none) (hd : dst < 2 ^ 64) (hs : src < 2 ^ 64) (hn0 : n0 < 2 ^ 32) (hn1 : n1 < 2 ^ 32) (r : Nat → Rnd)
    (e s token : Bytes) (he : e.length = 32) (ht : token.length = 8) (xs0 xs1 : List (Bytes × Block))
    (h0 : xs0 ≠ []) (h1 : xs1 ≠ []) (u0 : ∀ x ∈ xs0, Understood (fun i => (P.info i).isSome) x) (u1 : ∀ x ∈ xs1, Understood (fun i => (P.info i).isSome) x)
    (l0 : 8 ≤ (payloadOf xs0).length) (l1 : 8 ≤ (payloadOf xs1).length) (p3 : Bytes) :
    let t := accepted P b addr dst src n1 e s token (payloadOf xs1) p3 (r 1)
    let i1 : Inbound := ⟨addr, dst, src, b.intro, b.sk, ⟨chain P [t.es, t.ee], t.hash P [t.header1, t.e, t.body1 P, t.header2, t.f, t.body2 P]⟩,
      .awaitingConfirmed (r 1).esk (specHeaderKey P [t.es, t.ee] "SessionConfirmed") (cipherKey P [t.es] t.ee), some (t.created P)⟩
    ∃ i0,
      accept P chk b sessions addr (unkeyed P.toCrypto b.intro 10 dst n0 src (be 8 0) (payloadOf xs0)) (r 0) =
        .ok (i0, unkeyed P.toCrypto b.intro 9 src (r 0).pktNum dst (be 8 (r 0).token) (timeAddressPadding (r 0).now addr (r 0).padding)) ∧
      i0.onPacket P chk (unmasked P.toCrypto b.intro (t.request P)) (r 1) = (i1, .send (t.created P)) := by
  intro t i1
  have hC := hP.crypto
  have lh1 : t.header1.length = 32 := by rw [Talk.header1, header_long]; exact longHeader_len _ _ _ _ _ ht
  have b1 : 24 ≤ (t.body1 P).length := by rw [Talk.body1, seal_len hC]; simp only [t, accepted]; omega
  obtain ⟨i0, c0⟩ : ∃ i0 : Inbound, i0 = ⟨addr, dst, src, b.intro, b.sk, ⟨chain P [], t.hash P []⟩, .awaitingRequest (r 0).token, none⟩ := ⟨_, rfl⟩
  have s0 : accept P chk b sessions addr (unkeyed P.toCrypto b.intro 10 dst n0 src (be 8 0) (payloadOf xs0)) (r 0) =
      .ok (i0, unkeyed P.toCrypto b.intro 9 src (r 0).pktNum dst (be 8 (r 0).token) (timeAddressPadding (r 0).now addr (r 0).padding)) := by
    rw [accept, tokenRequest_routed hC chk b.intro dst src n0 (payloadOf xs0) l0 hn0 hd hs sessions none hfree]
    have hl : (longHeader dst n0 10 src (be 8 0)).length = 32 := longHeader_len _ _ _ _ _ (by simp)
    simp only [Inbound.new, List.take_left' hl, List.drop_left' hl, unseal_seal hC, blocks_ok (understood_read chk _ xs0 h0 u0), ok_bind, retry_spec hC, c0]
    rfl
  have s1 : i0.onPacket P chk (unmasked P.toCrypto b.intro (t.request P)) (r 1) = (i1, .send (t.created P)) := by
    have hrd := (keyed_read hC b.intro b.intro dst n1 0 ((le 8 src ++ token) ++ e) (t.body1 P) (by simp [le_len, he, ht]) b1 hn1).1 rfl
    have hx : le 8 dst ++ (half2 n1 0 2 2 0 ++ ((le 8 src ++ token) ++ e)) = t.header1 ++ t.e := by
      rw [Talk.header1, header_long, long_eq]; simp only [List.append_assoc]; rfl
    have hy : le 8 dst ++ (half2 n1 0 2 2 0 ++ (((le 8 src ++ token) ++ e) ++ t.body1 P)) = t.header1 ++ (e ++ t.body1 P) := by
      rw [Talk.header1, header_long, long_eq]; simp only [List.append_assoc]; rfl
    rw [hx, hy, List.drop_left' (by simp [le_len, ht])] at hrd
    rw [c0]
    have := onRequest_spec hP chk ⟨addr, dst, src, b.intro, b.sk, ⟨chain P [], t.hash P []⟩, .awaitingRequest (r 0).token, none⟩
      (unmasked P.toCrypto b.intro (t.request P)) (r 1) hrd lh1 he (mix_spec P [] _ _ _) (unseal_seal hC ..) (blocks_ok (understood_read chk _ xs1 h1 u1))
      (mix_spec P [t.es] _ _ _)
    rw [create_label, confirmed_label] at this
    exact this
  exact ⟨i0, s0, s1⟩

/-- C276: a router that another implementation dials answers every token request and `SessionRequest` of the specification, with any keys, numbers, token
and blocks, as the specification says, and has a session with its keys after the `SessionConfirmed`, under the id and with the intro key of the router
info in it, whatever blocks come before and after the router info. -/
theorem C276_being_dialled_partial {P : Prims} (hP : P.Lawful) (chk : Bool) (b : Self) (addr : SockAddr) (sessions : Nat → Option Unit) (dst src n0 n1 : Nat)
    (hfree : sessions dst = none) (hd : dst < 2 ^ 64) (hs : src < 2 ^ 64) (hn0 : n0 < 2 ^ 32) (hn1 : n1 < 2 ^ 32) (r : Nat → Rnd)
    (e s token : Bytes) (he : e.length = 32) (hs' : s.length = 32) (ht : token.length = 8) (xs0 xs1 before after : List (Bytes × Block)) (info : Bytes) (id : Nat) (intro : Bytes)
    (h0 : xs0 ≠ []) (h1 : xs1 ≠ []) (u0 : ∀ x ∈ xs0, Understood (fun i => (P.info i).isSome) x) (u1 : ∀ x ∈ xs1, Understood (fun i => (P.info i).isSome) x)
    (u2 : ∀ x ∈ before ++ after, Understood (fun i => (P.info i).isSome) x) (hb : ∀ x ∈ before, ∀ i, x.2 ≠ .routerInfo i) (l0 : 8 ≤ (payloadOf xs0).length)
    (l1 : 8 ≤ (payloadOf xs1).length) (hinfo : P.info info = some (id, some intro)) (hi1 : 3 ≤ info.length) (hi2 : info.length < 65534) :
    let t := accepted P b addr dst src n1 e s token (payloadOf xs1) (payloadOf (before ++ ((Block.routerInfo info).wire, .routerInfo info) :: after)) (r 1)
    ∃ i0 i1 ack,
      accept P chk b sessions addr (unkeyed P.toCrypto b.intro 10 dst n0 src (be 8 0) (payloadOf xs0)) (r 0) =
        .ok (i0, unkeyed P.toCrypto b.intro 9 src (r 0).pktNum dst (be 8 (r 0).token) (timeAddressPadding (r 0).now addr (r 0).padding)) ∧
      i0.onPacket P chk (unmasked P.toCrypto b.intro (t.request P)) (r 1) = (i1, .send (t.created P)) ∧
      (i1.onPacket P chk (unmasked P.toCrypto b.intro (t.confirmed P)) (r 2)).2 =
        .established ⟨addr, src, intro, (t.keys P).1, (t.keys P).2, id⟩ (some ack) := by
  intro t
  have hC := hP.crypto
  have b3 : 24 ≤ (t.body3 P).length := by
    rw [Talk.body3, seal_len hC]
    simp only [t, accepted, payloadOf, List.map_append, List.map_cons, List.flatten_append, List.flatten_cons, List.length_append, Block.wire, be_length]; omega
  have u : ∀ x ∈ before ++ ((Block.routerInfo info).wire, Block.routerInfo info) :: after, Understood (fun i => (P.info i).isSome) x := by
    intro x hx
    rcases List.mem_append.mp hx with hx | hx
    · exact u2 x (List.mem_append.mpr (.inl hx))
    · rcases List.mem_cons.mp hx with rfl | hx
      · exact .inl ⟨.routerInfo info, ⟨hi2, show (P.info info).isSome = true by rw [hinfo]; rfl⟩, rfl⟩
      · exact u2 x (List.mem_append.mpr (.inr hx))
  obtain ⟨i0, s0, s1⟩ := up_to_confirmed hP chk b addr sessions dst src n0 n1 hfree hd hs hn0 hn1 r e s token he ht xs0 xs1 h0 h1 u0 u1 l0 l1
    (payloadOf (before ++ ((Block.routerInfo info).wire, .routerInfo info) :: after))
  obtain ⟨i1, c1⟩ : ∃ i1 : Inbound, i1 = ⟨addr, dst, src, b.intro, b.sk, ⟨chain P [t.es, t.ee], t.hash P [t.header1, t.e, t.body1 P, t.header2, t.f, t.body2 P]⟩,
      .awaitingConfirmed (r 1).esk (specHeaderKey P [t.es, t.ee] "SessionConfirmed") (cipherKey P [t.es] t.ee), some (t.created P)⟩ := ⟨_, rfl⟩
  have hconf := (confirmed_spec hC b.intro (specHeaderKey P [t.es, t.ee] "SessionConfirmed") dst (t.static P) (t.body3 P) b3).2
  have hst : P.unseal (cipherKey P [t.es] t.ee) 1 (t.hash P (t.sent P)) (t.static P) = some s := unseal_seal hC ..
  have hri := info_found info before after hb
  obtain ⟨ack, i2, _, e2⟩ := onConfirmed_eq hP chk i1 (r 1).esk (specHeaderKey P [t.es, t.ee] "SessionConfirmed") (cipherKey P [t.es] t.ee)
    (unmasked P.toCrypto b.intro (t.confirmed P)) (hdr := t.header3) (ek := t.static P) (ep := t.body3 P) (static := s)
    (pl := payloadOf (before ++ ((Block.routerInfo info).wire, .routerInfo info) :: after))
    (bs := (before ++ ((Block.routerInfo info).wire, Block.routerInfo info) :: after).map (·.2)) (info := info) (id := id) (intro := intro)
    (by rw [c1, header3_eq]; rw [Talk.confirmed, header3_eq]; exact hconf)
    (by rw [header3_eq]; simp [confirmedHeader, le_len])
    (by rw [Talk.static, seal_len hC]; exact congrArg (· + 16) hs')
    (by rw [c1]; exact hst)
    (by
      rw [c1]
      rw [show (Noise.mixHash P (Noise.mixHash P ⟨chain P [t.es, t.ee], t.hash P [t.header1, t.e, t.body1 P, t.header2, t.f, t.body2 P]⟩ t.header3) (t.static P)) =
        ⟨chain P [t.es, t.ee], t.hash P (t.sent P ++ [t.static P])⟩ from rfl, mix_spec]
      exact unseal_seal hC ..)
    (blocks_ok (understood_read chk _ _ (by simp) u)) hri hinfo
  refine ⟨i0, i1, ack, s0, by rw [c1]; exact s1, ?_⟩
  have : i1.onPacket P chk (unmasked P.toCrypto b.intro (t.confirmed P)) (r 2) =
      i1.onConfirmed P chk (r 1).esk (specHeaderKey P [t.es, t.ee] "SessionConfirmed") (cipherKey P [t.es] t.ee) (unmasked P.toCrypto b.intro (t.confirmed P)) := by
    rw [c1]; rfl
  rw [this, e2, c1]
  rw [show (Noise.mixHash P (Noise.mixHash P ⟨chain P [t.es, t.ee], t.hash P [t.header1, t.e, t.body1 P, t.header2, t.f, t.body2 P]⟩ t.header3) (t.static P)) =
    ⟨chain P [t.es, t.ee], t.hash P (t.sent P ++ [t.static P])⟩ from rfl, mix_spec]
  simp only [dataKeys_spec]
  rfl

theorem onConfirmed_bad {P : Prims} (chk : Bool) (s : Inbound) (esk kh kc pkt : Bytes) {hdr ek ep static pl K : Bytes} {n : Noise}
    (h1 : reparse P.toCrypto s.introKey kh pkt = .ok (.sessionConfirmed 0, hdr ++ (ek ++ ep)))
    (l1 : hdr.length = 16) (l2 : ek.length = 48)
    (h2 : P.unseal kc 1 (s.noise.mixHash P hdr).state ek = some static) (hk : ((s.noise.mixHash P hdr).mixHash P ek).mixKey P esk static = (K, n))
    (h3 : P.unseal K 0 n.state ep = some pl)
    (h4 : handshakeBlocks P chk pl = if chk then .panic else .err) : (s.onConfirmed P chk esk kh kc pkt).2 = if chk then .panic else .error := by
  have c1 : (hdr ++ (ek ++ ep)).take 16 = hdr := List.take_left' l1
  have c2 : slice (hdr ++ (ek ++ ep)) 16 64 = ek := slice_mid _ _ _ _ _ l1 (by omega)
  have c3 : (hdr ++ (ek ++ ep)).drop 64 = ep := by rw [← List.append_assoc, List.drop_left' (by simp [l1, l2])]
  simp only [Inbound.onConfirmed, h1, ne_eq, not_true_eq_false, if_false]
  rw [if_neg (by simp only [List.length_append]; omega)]
  simp only [c1, c2, c3, h2, hk, h3, h4]
  cases chk <;> rfl

theorem compressed_bad (chk : Bool) (valid : Bytes → Bool) (compressed after : Bytes) (flag fragment : Nat) (hf : flag < 256) (hgz : flag / 2 % 2 = 1)
    (hl : compressed.length < 65534) :
    parseBlock chk valid (be 1 2 ++ be 2 (2 + compressed.length) ++ be 1 flag ++ be 1 fragment ++ compressed ++ after) = .err := by
  have e1 : (2 + compressed.length) % 65536 = 2 + compressed.length := Nat.mod_eq_of_lt (by omega)
  have e2 : ¬ (2 + compressed.length = 0) := by omega
  have e3 : flag % 256 = flag := Nat.mod_eq_of_lt hf
  have e4 : sub2 chk (2 + compressed.length) = .ok compressed.length := by
    rw [sub2, if_neg (by omega), show 2 + compressed.length - 2 = compressed.length by omega]
  simp only [parseBlock, List.append_assoc, beU_be, of_bind, Nat.reducePow, Nat.reduceMod, parseBody, parseRouterInfo, e1, e2, e3, e4, if_false, ok_bind,
    takeN_append (Eq.refl compressed.length), hgz, if_true]

/-- A payload that is an error. -/
theorem blocks_bad {P : Prims} {chk : Bool} {pl : Bytes} (h : parseBlocks chk (fun b => (P.info b).isSome) pl = .err) :
    handshakeBlocks P chk pl = if chk then .panic else .err := by
  rw [handshakeBlocks, h]

/-- C276 as the specification has it fails: "implementations must ignore unknown block types", but a token request with a block of a type that the
specification does not give (14, or 22 and up, but for padding), after any other blocks and with anything behind it, gets no answer: it is an error, and in
a debug build a panic. -/
theorem C276_unknown_blocks_violated {P : Prims} (hP : P.Lawful) (chk : Bool) (b : Self) (addr : SockAddr) (sessions : Nat → Option Unit) (dst src n0 : Nat)
    (hfree : sessions dst = none) (hd : dst < 2 ^ 64) (hs : src < 2 ^ 64) (hn0 : n0 < 2 ^ 32) (r : Rnd) (xs : List (Bytes × Block))
    (u : ∀ x ∈ xs, Understood (fun i => (P.info i).isSome) x) (l : 8 ≤ (payloadOf xs).length) (ty : Nat) (hty : ty < 256) (h : ty = 14 ∨ (22 ≤ ty ∧ ty ≠ 254)) (body after : Bytes) :
    accept P chk b sessions addr (unkeyed P.toCrypto b.intro 10 dst n0 src (be 8 0) (payloadOf xs ++ (be 1 ty ++ (be 2 body.length ++ body ++ after)))) r =
      if chk then .panic else .err := by
  have hC := hP.crypto
  rw [accept, tokenRequest_routed hC chk b.intro dst src n0 _ (by simp only [List.length_append]; omega) hn0 hd hs sessions none hfree]
  have hl : (longHeader dst n0 10 src (be 8 0)).length = 32 := longHeader_len _ _ _ _ _ (by simp)
  have hb : parseBlock chk (fun b => (P.info b).isSome) (be 1 ty ++ (be 2 body.length ++ body ++ after)) = .err := (C38_other_types chk _ ty [] _ hty (by decide)).2 h
  have hne : be 1 ty ++ (be 2 body.length ++ body ++ after) ≠ [] := by
    intro e; have := congrArg List.length e; simp only [List.length_append, be_length, List.length_nil] at this; omega
  simp only [Inbound.new, List.take_left' hl, List.drop_left' hl, unseal_seal hC, blocks_bad (bad_read chk _ xs u _ hne hb)]
  cases chk <;> rfl

/-- C276 as the specification has it fails: the router info of a `SessionConfirmed` may be compressed, but a responder then gives the session up, and in a debug
build panics, whatever comes before and after. -/
theorem C276_compressed_info_violated {P : Prims} (hP : P.Lawful) (chk : Bool) (b : Self) (addr : SockAddr) (sessions : Nat → Option Unit) (dst src n0 n1 : Nat)
    (hfree : sessions dst = none) (hd : dst < 2 ^ 64) (hs : src < 2 ^ 64) (hn0 : n0 < 2 ^ 32) (hn1 : n1 < 2 ^ 32) (r : Nat → Rnd)
    (e s token : Bytes) (he : e.length = 32) (hs' : s.length = 32) (ht : token.length = 8) (xs0 xs1 before : List (Bytes × Block)) (compressed after : Bytes) (flag fragment : Nat)
    (h0 : xs0 ≠ []) (h1 : xs1 ≠ []) (u0 : ∀ x ∈ xs0, Understood (fun i => (P.info i).isSome) x) (u1 : ∀ x ∈ xs1, Understood (fun i => (P.info i).isSome) x)
    (u2 : ∀ x ∈ before, Understood (fun i => (P.info i).isSome) x) (l0 : 8 ≤ (payloadOf xs0).length) (l1 : 8 ≤ (payloadOf xs1).length)
    (hf : flag < 256) (hgz : flag / 2 % 2 = 1) (hi1 : 3 ≤ compressed.length) (hi2 : compressed.length < 65534) :
    let t := accepted P b addr dst src n1 e s token (payloadOf xs1)
      (payloadOf before ++ (be 1 2 ++ be 2 (2 + compressed.length) ++ be 1 flag ++ be 1 fragment ++ compressed ++ after)) (r 1)
    ∃ i0 i1,
      accept P chk b sessions addr (unkeyed P.toCrypto b.intro 10 dst n0 src (be 8 0) (payloadOf xs0)) (r 0) =
        .ok (i0, unkeyed P.toCrypto b.intro 9 src (r 0).pktNum dst (be 8 (r 0).token) (timeAddressPadding (r 0).now addr (r 0).padding)) ∧
      i0.onPacket P chk (unmasked P.toCrypto b.intro (t.request P)) (r 1) = (i1, .send (t.created P)) ∧
      (i1.onPacket P chk (unmasked P.toCrypto b.intro (t.confirmed P)) (r 2)).2 = if chk then .panic else .error := by
  intro t
  have hC := hP.crypto
  have b3 : 24 ≤ (t.body3 P).length := by
    rw [Talk.body3, seal_len hC]
    simp only [t, accepted, List.length_append, be_length]; omega
  obtain ⟨i0, s0, s1⟩ := up_to_confirmed hP chk b addr sessions dst src n0 n1 hfree hd hs hn0 hn1 r e s token he ht xs0 xs1 h0 h1 u0 u1 l0 l1
    (payloadOf before ++ (be 1 2 ++ be 2 (2 + compressed.length) ++ be 1 flag ++ be 1 fragment ++ compressed ++ after))
  refine ⟨i0, _, s0, s1, ?_⟩
  have hconf := (confirmed_spec hC b.intro (specHeaderKey P [t.es, t.ee] "SessionConfirmed") dst (t.static P) (t.body3 P) b3).2
  have hst : P.unseal (cipherKey P [t.es] t.ee) 1 (t.hash P (t.sent P)) (t.static P) = some s := unseal_seal hC ..
  have hbad := compressed_bad chk (fun b => (P.info b).isSome) compressed after flag fragment hf hgz hi2
  have hne : be 1 2 ++ be 2 (2 + compressed.length) ++ be 1 flag ++ be 1 fragment ++ compressed ++ after ≠ [] := by
    intro e; have := congrArg List.length e; simp only [List.length_append, be_length, List.length_nil] at this; omega
  exact onConfirmed_bad chk _ (r 1).esk (specHeaderKey P [t.es, t.ee] "SessionConfirmed") (cipherKey P [t.es] t.ee)
    (unmasked P.toCrypto b.intro (t.confirmed P)) (hdr := t.header3) (ek := t.static P) (ep := t.body3 P) (static := s)
    (by rw [header3_eq]; rw [Talk.confirmed, header3_eq]; exact hconf)
    (by rw [header3_eq]; simp [confirmedHeader, le_len])
    (by rw [Talk.static, seal_len hC]; exact congrArg (· + 16) hs')
    hst (mix_spec P [t.es, t.ee] _ _ _) (unseal_seal hC ..) (blocks_bad (bad_read chk _ before u2 _ hne hbad))

/-! ## Concrete cases -/

/-- A peer that is not this code: a token of its own, a packet number and payloads that the code would not choose. -/
example := C276_dialling toyP_lawful true ⟨[5], [9, 9], [1, 2, 3, 4], 42⟩ ⟨toyP.pub [6], [8], .v4 [4, 3, 2, 1] 6, 43⟩ 1000 2000 (by decide)
  (fun k => { esk := [UInt8.ofNat (17 * k + 3)], token := 7, pktNum := 3, now := 1, padding := [0] }) 77 (by decide) (List.replicate 20 6) (by decide)
  [1, 2, 3, 4, 5, 0, 0, 0] (List.replicate 32 9) 99 (List.replicate 30 7) (by decide) (by decide) (by decide) (by decide)

def toyBlocks : List (Bytes × Block) := [((Block.dateTime 5).wire, .dateTime 5), (be 1 9 ++ be 2 3 ++ [1, 2, 3], .unsupported)]

theorem toyBlocks_ok (valid : Bytes → Bool) : ∀ x ∈ toyBlocks, Understood valid x := by
  intro x hx
  simp only [toyBlocks, List.mem_cons, List.not_mem_nil, or_false] at hx
  rcases hx with rfl | rfl
  · exact .inl ⟨.dateTime 5, show (5 : Nat) < 2 ^ 32 by decide, rfl⟩
  · exact .inr ⟨9, [1, 2, 3], by decide, by decide, rfl⟩

example := C276_being_dialled_partial toyP_lawful true ⟨[6], [8], [], 43⟩ (.v4 [1, 2, 3, 4] 5) (fun _ => none) 1000 2000 77 78 rfl (by decide) (by decide) (by decide)
  (by decide) (fun k => { esk := [UInt8.ofNat (17 * k + 3)], token := 7, pktNum := 3, now := 1, padding := [0] }) (List.replicate 32 4) (List.replicate 32 5)
  (List.replicate 8 6) (by decide) (by decide) (by decide) toyBlocks toyBlocks toyBlocks [] [1, 2, 3, 4] 42 [9, 9] (by decide) (by decide) (toyBlocks_ok _) (toyBlocks_ok _)
  (by rw [List.append_nil]; exact toyBlocks_ok _) (by simp [toyBlocks]) (by decide) (by decide) rfl (by decide) (by decide)

example := C276_unknown_blocks_violated toyP_lawful true ⟨[6], [8], [], 43⟩ (.v4 [1, 2, 3, 4] 5) (fun _ => none) 1000 2000 77 rfl (by decide) (by decide) (by decide)
  { esk := [3], token := 7, pktNum := 3, now := 1, padding := [0] } toyBlocks (toyBlocks_ok _) (by decide) 22 (by decide) (.inr ⟨by decide, by decide⟩) [1, 2] []

example := C276_compressed_info_violated toyP_lawful false ⟨[6], [8], [], 43⟩ (.v4 [1, 2, 3, 4] 5) (fun _ => none) 1000 2000 77 78 rfl (by decide) (by decide) (by decide)
  (by decide) (fun k => { esk := [UInt8.ofNat (17 * k + 3)], token := 7, pktNum := 3, now := 1, padding := [0] }) (List.replicate 32 4) (List.replicate 32 5)
  (List.replicate 8 6) (by decide) (by decide) (by decide) toyBlocks toyBlocks [] [31, 139, 8, 0] [] 2 1 (by decide) (by decide) (toyBlocks_ok _) (toyBlocks_ok _)
  (by simp) (by decide) (by decide) (by decide) (by decide) (by decide) (by decide)

end Emissary.Ssu2
