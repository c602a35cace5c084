import Verif.Props.Ecies
import Verif.Model.Session
import Verif.Model.TunnelBuild
/-!
# C273: keys are derived as the specifications say
-/
namespace Emissary.Kdf
open Emissary Emissary.I2np
open Emissary.Ssu2 (Prims)
open Emissary.Ntcp2 (unle le)
open Emissary.Ratchet
open Emissary.Ecies (Elligator Tags)

/-! ## Specification: RFC 5869, the Noise protocol framework and the labels of the I2P specifications -/

def ascii (s : String) : Bytes := s.toUTF8.toList

/-- HKDF with 64 bytes of output, as two keys. -/
def hkdf (P : Prims) (salt ikm : Bytes) (info : String) : Bytes × Bytes :=
  let prk := P.hmac salt ikm
  let t1 := P.hmac prk (ascii info ++ [1])
  (t1, P.hmac prk (t1 ++ ascii info ++ [2]))

/-- `SymmetricState` of Noise: the chaining key and the hash. -/
structure Sym where
  ck : Bytes
  h : Bytes

/-- `InitializeSymmetric`: a name of at most 32 bytes is filled up with zeros, a longer one is hashed. -/
def Sym.start (P : Prims) (name : String) : Sym :=
  let h := if (ascii name).length ≤ 32 then ascii name ++ List.replicate (32 - (ascii name).length) 0 else P.sha (ascii name)
  ⟨h, h⟩

def Sym.mixHash (P : Prims) (s : Sym) (x : Bytes) : Sym := { s with h := P.sha (s.h ++ x) }

/-- `MixKey`: the new state and the cipher key. -/
def Sym.mixKey (P : Prims) (s : Sym) (ikm : Bytes) : Sym × Bytes := ({ s with ck := (hkdf P s.ck ikm "").1 }, (hkdf P s.ck ikm "").2)

/-- `EncryptAndHash`. -/
def Sym.encrypt (P : Prims) (s : Sym) (k plain : Bytes) : Sym × Bytes := (s.mixHash P (P.seal k 0 s.h plain), P.seal k 0 s.h plain)

/-- The new session message of a garlic session, pattern `IK` with Elligator2: `<- s`, then `-> e, es, s, ss`. `aSk` is the static key of who opens it and `e`
the ephemeral one, `B` is the static key of the other end. -/
def newSession (P : Prims) (E : Elligator) (aSk e B plain : Bytes) : Sym × Bytes :=
  let s := Sym.start P "Noise_IKelg2+hs2_25519_ChaChaPoly_SHA256"
  let s := s.mixHash P []          -- no prologue
  let s := s.mixHash P B
  let s := s.mixHash P (P.pub e)
  let (s, k) := s.mixKey P (P.dh e B)
  let (s, static) := s.encrypt P k (P.pub aSk)
  let (s, k) := s.mixKey P (P.dh aSk B)
  let (s, payload) := s.encrypt P k plain
  (s, E.encode e ++ static ++ payload)

/-- `DH_INITIALIZE`: the next root, the tag chain with its constant, and the key chain. -/
structure Chains where
  nextRoot : Bytes
  tags : Bytes
  constant : Bytes
  keys : Bytes

def dhInitialize (P : Prims) (root k : Bytes) : Chains :=
  let (nextRoot, ck) := hkdf P root k "KDFDHRatchetStep"
  let (tags, keys) := hkdf P ck [] "TagAndKeyGenKeys"
  let (tags, constant) := hkdf P tags [] "STInitialization"
  ⟨nextRoot, tags, constant, keys⟩

/-- The chains after some messages. -/
def tagChain (P : Prims) (c : Chains) : Nat → Bytes
  | 0 => c.tags
  | n + 1 => (hkdf P (tagChain P c n) c.constant "SessionTagKeyGen").1
def keyChain (P : Prims) (c : Chains) : Nat → Bytes
  | 0 => c.keys
  | n + 1 => (hkdf P (keyChain P c n) [] "SymmetricRatchet").1

/-- The tag and the key of the `n`-th message of a tag set. -/
def tagOf (P : Prims) (c : Chains) (n : Nat) : Bytes := (hkdf P (tagChain P c n) c.constant "SessionTagKeyGen").2.take 8
def keyOf (P : Prims) (c : Chains) (n : Nat) : Bytes := (hkdf P (keyChain P c n) [] "SymmetricRatchet").2

/-- The reply to a new session message after which the state is `s`: `<- tag, e, ee, se`. `X` and `A` are the ephemeral and the static key of the other end. The
message, and the chains from the initiator and to it. -/
def reply (P : Prims) (E : Elligator) (s : Sym) (f X A tag plain : Bytes) : Bytes × Chains × Chains :=
  let s := s.mixHash P tag
  let s := s.mixHash P (P.pub f)
  let (s, _) := s.mixKey P (P.dh f X)
  let (s, k) := s.mixKey P (P.dh f A)
  let (s, mac) := s.encrypt P k []
  let (kAB, kBA) := hkdf P s.ck [] ""
  (tag ++ E.encode f ++ mac ++ P.seal (hkdf P kBA [] "AttachPayloadKDF").1 0 s.h plain, dhInitialize P s.ck kAB, dhInitialize P s.ck kBA)

/-- The chains of the tags of replies. -/
def replyChains (P : Prims) (s : Sym) : Chains := dhInitialize P s.ck (hkdf P s.ck [] "SessionReplyTags").1

/-- The chains after a Diffie-Hellman ratchet. -/
def ratchetChains (P : Prims) (c : Chains) (secret : Bytes) : Chains := dhInitialize P c.nextRoot (hkdf P secret [] "XDHRatchetTagSet").1

/-- The state with which a build record is sealed, pattern `N`, and the cipher key: `<- s`, `-> e, es`. -/
def buildRecord (P : Prims) (B X secret : Bytes) : Sym × Bytes :=
  let s := Sym.start P "Noise_N_25519_ChaChaPoly_SHA256"
  let s := s.mixHash P []
  let s := s.mixHash P B
  let s := s.mixHash P X
  s.mixKey P secret

/-- The keys of a hop: reply key, layer key, IV key, and for the endpoint of an outbound tunnel a garlic key and tag. -/
def hopKeys (P : Prims) (ck : Bytes) (endpoint : Bool) : Bytes × Bytes × Bytes × Option (Bytes × Bytes) :=
  let (ck, reply) := hkdf P ck [] "SMTunnelReplyKey"
  let (ck, layer) := hkdf P ck [] "SMTunnelLayerKey"
  if endpoint then
    let (ck, iv) := hkdf P ck [] "TunnelLayerIVKey"
    let (ck, garlic) := hkdf P ck [] "RGarlicKeyAndTag"
    (reply, layer, iv, some (garlic, ck.take 8))
  else (reply, layer, ck, none)

/-! ## C273 -/

theorem ascii_nil : ascii "" = [] := by decide +kernel

theorem hkdf_nil (P : Prims) (salt ikm : Bytes) :
    hkdf P salt ikm "" = (P.hmac (P.hmac salt ikm) [1], P.hmac (P.hmac salt ikm) (P.hmac (P.hmac salt ikm) [1] ++ [2])) := by
  simp only [hkdf, ascii_nil, List.nil_append, List.append_nil]

/-- The chains that a tag set has. -/
def chainsOf (c : Chain) : Chains := ⟨c.nextRoot, c.tagData, c.tagConst, c.symKey⟩

/-- C273: a new tag set has the chains of the specification, and so has one after a ratchet. -/
theorem C273_tag_sets (P : Prims) (root k : Bytes) (t : TagSet) (sk pk : Bytes) (send recv : Nat) :
    chainsOf (TagSet.new P root k).chain = dhInitialize P root k ∧
    chainsOf (t.reinit P sk pk send recv).chain = ratchetChains P (chainsOf t.chain) (P.dh sk pk) ∧ (t.reinit P sk pk send recv).index = 0 :=
  ⟨rfl, rfl, rfl⟩

theorem chain_iter (P : Prims) (c : Chain) (n : Nat) :
    (c.iter P n).tagData = tagChain P (chainsOf c) n ∧ (c.iter P n).symKey = keyChain P (chainsOf c) n ∧ (c.iter P n).tagConst = c.tagConst := by
  induction n with
  | zero => exact ⟨rfl, rfl, rfl⟩
  | succ n ih =>
    obtain ⟨h1, h2, h3⟩ := ih
    refine ⟨?_, ?_, ?_⟩
    · simp only [Chain.iter, Chain.step, h1, h3, tagChain, hkdf, chainsOf]; rfl
    · simp only [Chain.iter, Chain.step, h2, keyChain, hkdf]; rfl
    · simp only [Chain.iter, Chain.step, h3]

/-- The tag set after `n` entries. -/
def afterN (P : Prims) : Nat → TagSet → TagSet
  | 0, t => t
  | n + 1, t => ((afterN P n t).next P).2

theorem afterN_eq (P : Prims) (t : TagSet) (h0 : t.index = 0) (n : Nat) (hn : n ≤ 65535) : afterN P n t = { t with chain := t.chain.iter P n, index := n } := by
  induction n with
  | zero => cases t; simp_all [afterN, Chain.iter]
  | succ n ih =>
    rw [afterN, ih (by omega), TagSet.next, if_pos (by simp only; omega)]
    rfl

/-- C273: the `n`-th entry of any tag set that starts at zero, for every `n` below 65,535, has the tag and the key of the specification. -/
theorem C273_entries (P : Prims) (t : TagSet) (h0 : t.index = 0) (n : Nat) (hn : n < 65535) :
    ((afterN P n t).next P).1 = some { key := keyOf P (chainsOf t.chain) n, tag := unle (tagOf P (chainsOf t.chain) n), index := n, setId := t.id } := by
  rw [afterN_eq P t h0 n (by omega), TagSet.next, if_pos (by simp only; omega)]
  obtain ⟨h1, h2, h3⟩ := chain_iter P t.chain n
  simp only [Chain.step, h1, h2, h3, keyOf, tagOf, hkdf]
  rfl

/-- C273: the new session message is the one of the specification, and so is what both ends keep of it. -/
theorem C273_new_session (P : Prims) (E : Elligator) (aSk e B plain : Bytes) :
    (Ecies.KeyCtx.new P aSk).newSession P E B e plain =
      ({ state := (newSession P E aSk e B plain).1.h, sk := aSk, esk := e, ck := (newSession P E aSk e B plain).1.ck }, (newSession P E aSk e B plain).2) := by
  have hn : ¬ (ascii "Noise_IKelg2+hs2_25519_ChaChaPoly_SHA256").length ≤ 32 := by decide +kernel
  simp only [newSession, Sym.start, if_neg hn, Sym.mixHash, Sym.mixKey, Sym.encrypt, hkdf, Ecies.KeyCtx.new, Ecies.KeyCtx.newSession, Ecies.mix, List.append_nil, ascii_nil, List.nil_append]
  rfl

/-- C273: so is the reply, with the tag sets of both directions, and so are the tags that replies come with. -/
theorem C273_reply (P : Prims) (E : Elligator) (T : Tags) (hT : T.recv ≤ 65535) (s : Sym) (f X A : Bytes) (tag : Nat) (plain : Bytes) :
    let r := reply P E s f X A (le 8 tag) plain
    (∃ es send recv, Ecies.makeReply P E T s.ck s.h X A f tag plain = some (r.1, es, send, recv) ∧
      chainsOf send.chain = r.2.2 ∧ (send.index, send.id, recv.id) = (0, 0, 0) ∧ send.state = .uninit ∧ recv.state = .uninit ∧ recv = afterN P T.recv { recv with chain := ⟨r.2.1.nextRoot, r.2.1.tags, r.2.1.constant, r.2.1.keys⟩, index := 0 } ∧
      es = (List.range T.recv).map fun n => { key := keyOf P r.2.1 n, tag := unle (tagOf P r.2.1 n), index := n, setId := 0 }) ∧
    chainsOf (Ecies.replySet P s.ck).chain = replyChains P s := by
  intro r
  refine ⟨?_, rfl⟩
  have hr : ∀ root k n, n < 65535 → Ecies.entryAt P root k n =
      { key := keyOf P (dhInitialize P root k) n, tag := unle (tagOf P (dhInitialize P root k) n), index := n, setId := 0 } := by
    intro root k n hn
    have h1 := C273_entries P (TagSet.new P root k) rfl n hn
    rw [afterN_eq P _ rfl n (by omega)] at h1
    have h2 := Ecies.next_after P root k hn
    have h3 : ({ TagSet.new P root k with chain := (TagSet.new P root k).chain.iter P n, index := n } : TagSet) = Ecies.TagSet.after P root k n := rfl
    rw [h3, h2] at h1
    exact Option.some.inj h1
  simp only [Ecies.makeReply, Ecies.replyKeys, Ecies.mix, Ecies.split]
  generalize hck : P.hmac (P.hmac (P.hmac (P.hmac s.ck (P.dh f X)) [1]) (P.dh f A)) [1] = ck
  generalize hka : P.hmac (P.hmac ck []) [1] = ka
  have hz : TagSet.new P ck ka = Ecies.TagSet.after P ck ka 0 := rfl
  have hl := Ecies.nexts_after P ck ka T.recv 0 (by omega)
  rw [← hz] at hl
  rw [hl]
  simp only [Option.bind_eq_bind, Option.bind_some, Option.pure_def]
  have h1 : r.2.1 = dhInitialize P ck ka := by
    simp only [r, reply, Sym.mixHash, Sym.mixKey, Sym.encrypt, hkdf, ascii_nil, List.nil_append, List.append_nil]
    rw [← hka, ← hck]
  have h2 : r.2.2 = dhInitialize P ck (P.hmac (P.hmac ck []) (ka ++ [2])) := by
    simp only [r, reply, Sym.mixHash, Sym.mixKey, Sym.encrypt, hkdf, ascii_nil, List.nil_append, List.append_nil]
    rw [← hka, ← hck]
  refine ⟨_, _, _, congrArg some (Prod.ext ?_ rfl), ?_, rfl, rfl, rfl, ?_, ?_⟩
  · simp only [r, reply, Sym.mixHash, Sym.mixKey, Sym.encrypt, hkdf, ascii_nil, List.nil_append, List.append_nil, Ecies.payloadKey]
    rw [← hka, ← hck]; rfl
  · rw [h2]; rfl
  · rw [h1, afterN_eq P _ rfl _ hT]
    simp only [Ecies.TagSet.after, Nat.zero_add]
    rfl
  · rw [h1, ← List.range_eq_range']
    apply List.map_congr_left
    intro n hn
    exact hr ck ka n (by have := List.mem_range.mp hn; omega)

/-- C273: build records are sealed with the keys of the specification, at both ends, and the keys of a hop are those of the specification. -/
theorem C273_tunnels (P : Prims) (B e : Bytes) (role : HopRole) (sk X : Bytes) :
    let s := TBuild.outSession P B e role
    let r := buildRecord P B (P.pub e) (P.dh e B)
    let k := hopKeys P r.1.ck (decide (role = .outboundEndpoint))
    (s.aead = r.2 ∧ s.state = r.1.h ∧ s.eph = P.pub e ∧ (s.keys.reply, s.keys.layer, s.keys.iv, s.keys.garlic) = k) ∧
    (TBuild.inSession P sk X).ck = (buildRecord P (P.pub sk) X (P.dh sk X)).1.ck ∧
    (TBuild.inSession P sk X).aead = (buildRecord P (P.pub sk) X (P.dh sk X)).2 ∧
    (TBuild.inSession P sk X).state = (buildRecord P (P.pub sk) X (P.dh sk X)).1.h := by
  have hn : (ascii "Noise_N_25519_ChaChaPoly_SHA256").length = 31 := by decide +kernel
  have hs : Sym.start P "Noise_N_25519_ChaChaPoly_SHA256" = ⟨TBuild.protocolCk, TBuild.protocolCk⟩ := by
    simp only [Sym.start, hn]
    rfl
  intro s r k
  refine ⟨⟨?_, ?_, rfl, ?_⟩, ?_, ?_, ?_⟩
  · simp only [s, r, buildRecord, hs, Sym.mixKey, hkdf_nil]; rfl
  · simp only [s, r, buildRecord, hs, Sym.mixHash, Sym.mixKey, TBuild.outSession, TBuild.outState, List.append_nil]
  · simp only [s, k, r, buildRecord, hs, Sym.mixKey, hkdf_nil]
    cases role <;> rfl
  · simp only [buildRecord, hs, Sym.mixKey, hkdf_nil]; rfl
  · simp only [buildRecord, hs, Sym.mixKey, hkdf_nil]; rfl
  · simp only [buildRecord, hs, Sym.mixHash, Sym.mixKey, TBuild.inSession, TBuild.inState, TBuild.outState, List.append_nil]

/-- C273: the states that SSU2 handshakes start with, and the keys for headers and data. -/
theorem C273_ssu2 (P : Prims) (sk ck : Bytes) :
    let s := (Sym.start P "Noise_XKchaobfse+hs1+hs2+hs3_25519_ChaChaPoly_SHA256").mixHash P []
    Ssu2.socketStates P sk = (s.ck, s.h, (s.mixHash P (P.pub sk)).h) ∧
    Ssu2.headerKey P ck Ssu2.lblCreate = (hkdf P ck [] "SessCreateHeader").1 ∧
    Ssu2.headerKey P ck Ssu2.lblConfirmed = (hkdf P ck [] "SessionConfirmed").1 ∧
    (let k := hkdf P ck [] ""
     Ssu2.dataKeys P ck = (⟨(hkdf P k.1 [] "HKDFSSU2DataKeys").1, (hkdf P k.1 [] "HKDFSSU2DataKeys").2⟩,
       ⟨(hkdf P k.2 [] "HKDFSSU2DataKeys").1, (hkdf P k.2 [] "HKDFSSU2DataKeys").2⟩)) := by
  have hn : ¬ (ascii "Noise_XKchaobfse+hs1+hs2+hs3_25519_ChaChaPoly_SHA256").length ≤ 32 := by decide +kernel
  refine ⟨?_, rfl, rfl, by simp only [hkdf_nil]; rfl⟩
  simp only [Sym.start, if_neg hn, Sym.mixHash, Ssu2.socketStates, List.append_nil]
  rfl

theorem le_unle8 {b : Bytes} (h : b.length = 8) : le 8 (unle b) = b := by
  have h' := be_unbe b.reverse
  rw [List.length_reverse, h] at h'
  rw [le, unle, h', List.reverse_reverse]

/-- C273: the message with number `n` of a session that sends with a tag set that began as `t` is the tag, and the payload sealed with the key, the number and
the tag of the specification. -/
theorem C273_messages (C : Ecies.Cfg) (v : Ecies.Draw) (blocks : List Garlic.Block) (s : Ecies.Sess) (t : TagSet) (h0 : t.index = 0) (n : Nat)
    (hn : n < 65535) (hs : s.send = afterN C.P n t) (hl : (tagOf C.P (chainsOf t.chain) n).length = 8) (id i : Nat) (m : Bytes) (s' : Ecies.Sess)
    (h : s.encrypt C v blocks = (.ok (id, i, m), s')) :
    id = t.id ∧ i = n ∧ ∃ more plain, Garlic.build (blocks ++ more) = some plain ∧
      m = tagOf C.P (chainsOf t.chain) n ++ C.P.seal (keyOf C.P (chainsOf t.chain) n) n (tagOf C.P (chainsOf t.chain) n) plain := by
  have he := C273_entries C.P t h0 n hn
  rw [← hs] at he
  rw [Ecies.Sess.encrypt] at h
  rcases hx : s.send.next C.P with ⟨e, send⟩
  rw [hx] at h he
  simp only at he
  subst he
  simp only at h
  rcases hg : send.tryGenerate C.P C.chk (v.keys 0) with ⟨k, send⟩
  rw [hg] at h
  cases k with
  | error x => simp at h
  | panic => simp at h
  | ok k =>
    simp only at h
    split at h
    · simp at h
    · rename_i plain hb
      simp only [Prod.mk.injEq, Out.ok.injEq] at h
      obtain ⟨⟨h1, h2, h3⟩, -⟩ := h
      refine ⟨h1.symm, h2.symm, k.toList.map .nextKey ++ s.pendingKey.toList.map .nextKey, plain, by rw [← List.append_assoc]; exact hb, ?_⟩
      rw [← h3]
      simp only [Ecies.Entry.seal, le_unle8 hl]

/-! ## Non-vacuity -/

example : Tags.code.recv ≤ 65535 := by decide

/-- Sample primitives with keys of 32 bytes. -/
def sample : Prims := { samplePrims with hmac := fun k d => (k ++ d).foldl (· + ·) 7 :: List.replicate 31 0 }

/-- The third message of a session that sends with a new tag set: the hypotheses hold, and the tag is not the one of the message before. -/
example : let t := TagSet.new sample [1, 2] [3]
    t.index = 0 ∧ (tagOf sample (chainsOf t.chain) 2).length = 8 ∧
    (tagOf sample (chainsOf t.chain) 2 ≠ tagOf sample (chainsOf t.chain) 1) ∧
    (keyOf sample (chainsOf t.chain) 2 ≠ keyOf sample (chainsOf t.chain) 1) := by decide +kernel

end Emissary.Kdf
