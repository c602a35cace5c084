import Verif.Props.KeyDerivation
import Verif.Props.SessionOpen
import Verif.Props.SessionFaults
import Verif.Props.SessionChat
import Verif.Props.Wire
/-!
# C280: destinations talk with those of any implementation
-/
namespace Emissary.GarlicPeer
open Emissary Emissary.I2np Emissary.Garlic
open Emissary.Ssu2 (Prims)
open Emissary.Ntcp2 (unle le)
open Emissary.Ratchet (Chain Entry TagSet)
open Emissary.Ecies
open Emissary.Kdf (Sym Chains dhInitialize replyChains)

/-! ## Specification: a destination that follows the ECIES-X25519-AEAD-Ratchet specification

The messages that it sends are `Kdf.newSession`, `Kdf.reply` and `existing`; what follows is how it reads them. -/

/-- The payload `plain` consists of the blocks `bs`. -/
def Carries (plain : Bytes) (bs : List Block) : Prop :=
  bs ≠ [] ∧ (∀ b ∈ bs, b.Ok ∨ ∃ p, b = .padding p ∧ p.length < 2 ^ 16) ∧ ∃ fs, bs.mapM Wire.garlicBlock = some fs ∧ plain = Wire.layout fs.flatten

/-- The `n`-th message of a tag set. -/
def existing (P : Prims) (c : Chains) (n : Nat) (plain : Bytes) : Bytes :=
  Kdf.tagOf P c n ++ P.seal (Kdf.keyOf P c n) n (Kdf.tagOf P c n) plain

def readExisting (P : Prims) (c : Chains) (n : Nat) (msg : Bytes) : Option Bytes :=
  if msg.take 8 = Kdf.tagOf P c n then P.unseal (Kdf.keyOf P c n) n (msg.take 8) (msg.drop 8) else none

/-- Who has the static key `b` reads a request: the state after it, the ephemeral and the static key of who asks, and the payload. -/
def readRequest (P : Prims) (E : Elligator) (b msg : Bytes) : Option (Sym × Bytes × Bytes × Bytes) := do
  let X ← E.decode (msg.take 32)
  let s := (((Sym.start P "Noise_IKelg2+hs2_25519_ChaChaPoly_SHA256").mixHash P []).mixHash P (P.pub b)).mixHash P X
  let (s, k) := s.mixKey P (P.dh b X)
  let A ← P.unseal k 0 s.h ((msg.drop 32).take 48)
  let s := s.mixHash P ((msg.drop 32).take 48)
  let (s, k) := s.mixKey P (P.dh b A)
  let plain ← P.unseal k 0 s.h (msg.drop 80)
  return (s.mixHash P (msg.drop 80), X, A, plain)

/-- Who asked with the static key `a` and the ephemeral key `e`, and has the state `s` since, reads a reply: the payload, and the chains from it and to it. -/
def readReply (P : Prims) (E : Elligator) (s : Sym) (a e msg : Bytes) : Option (Bytes × Chains × Chains) := do
  let Y ← E.decode ((msg.drop 8).take 32)
  let s := (s.mixHash P (msg.take 8)).mixHash P Y
  let (s, _) := s.mixKey P (P.dh e Y)
  let (s, k) := s.mixKey P (P.dh a Y)
  let _ ← P.unseal k 0 s.h ((msg.drop 40).take 16)
  let s := s.mixHash P ((msg.drop 40).take 16)
  let (kAB, kBA) := Kdf.hkdf P s.ck [] ""
  let plain ← P.unseal (Kdf.hkdf P kBA [] "AttachPayloadKDF").1 0 s.h (msg.drop 56)
  return (plain, dhInitialize P s.ck kAB, dhInitialize P s.ck kBA)

/-- The chains that a reply brings, from who asked and to them. They do not depend on its tag and payload. -/
def chainsFor (P : Prims) (E : Elligator) (s : Sym) (f X A : Bytes) : Chains × Chains := (Kdf.reply P E s f X A [] []).2

/-- No tag occurs twice among the first 65,535 of the tag sets. -/
def Apart' (P : Prims) (cs : List Chains) : Prop :=
  ∀ (j j' : Nat) (c c' : Chains), cs[j]? = some c → cs[j']? = some c' → ∀ i < 65535, ∀ i' < 65535, Kdf.tagOf P c i = Kdf.tagOf P c' i' → j = j' ∧ i = i'

/-- None of these tags is waited for. -/
def Free (P : Prims) (m : Mgr) (cs : List Chains) : Prop := ∀ c ∈ cs, ∀ i < 65535, m.tags.map (unle (Kdf.tagOf P c i)) = none

/-- A message of an established session that comes from the other end: when, with which number, and what is in it. -/
structure Note where
  v : Draw
  i : Nat
  plain : Bytes
  bs : List Block

/-- Its number is among the first `R`, and it has no next key block. -/
def Note.Ok (R : Nat) (z : Note) : Prop := z.i < R ∧ Carries z.plain z.bs ∧ ∀ k, Block.nextKey k ∉ z.bs

/-- The cloves as they are handed on: expirations are whole seconds. -/
def cloves (bs : List Block) : List Clove := clovesOf (bs.map Block.onWire)

/-! ## Both ends of the specification agree -/

theorem take8 {P : Prims} (hD : TBuild.Digests P) (c : Chains) (n : Nat) : (Kdf.tagOf P c n).length = 8 := by
  simp only [Kdf.tagOf, Kdf.hkdf, List.length_take]
  have := hD.hmac (P.hmac (Kdf.tagChain P c n) c.constant) (P.hmac (P.hmac (Kdf.tagChain P c n) c.constant) (Kdf.ascii "SessionTagKeyGen" ++ [1]) ++ Kdf.ascii "SessionTagKeyGen" ++ [2])
  omega

theorem readExisting_existing {P : Prims} (hP : P.Lawful) (hD : TBuild.Digests P) (c : Chains) (n : Nat) (plain : Bytes) :
    readExisting P c n (existing P c n plain) = some plain := by
  have h8 := take8 hD c n
  rw [readExisting, existing, List.take_left' h8, List.drop_left' h8, if_pos rfl, Ssu2.unseal_seal hP.crypto]

theorem readRequest_newSession {P : Prims} (hP : P.Lawful) {E : Elligator} {e : Bytes} (he : Encodable P E e) (a b plain : Bytes) :
    readRequest P E b (Kdf.newSession P E a e (P.pub b) plain).2 = some ((Kdf.newSession P E a e (P.pub b) plain).1, P.pub e, P.pub a, plain) := by
  have hseal : ∀ k n ad p, (P.seal k n ad p).length = p.length + 16 := fun k n ad p => hP.crypto.aead.len _ _ _ _
  have key : ∀ s0 : Sym, s0 = Sym.mixHash P (Sym.mixHash P (Sym.mixHash P (Sym.start P "Noise_IKelg2+hs2_25519_ChaChaPoly_SHA256") []) (P.pub b)) (P.pub e) →
      ∀ st, P.seal (s0.mixKey P (P.dh e (P.pub b))).2 0 (s0.mixKey P (P.dh e (P.pub b))).1.h (P.pub a) = st →
      ∀ s1 : Sym × Bytes, ((s0.mixKey P (P.dh e (P.pub b))).1.mixHash P st).mixKey P (P.dh a (P.pub b)) = s1 →
      Kdf.newSession P E a e (P.pub b) plain = (s1.1.mixHash P (P.seal s1.2 0 s1.1.h plain), E.encode e ++ st ++ P.seal s1.2 0 s1.1.h plain) ∧
      readRequest P E b (E.encode e ++ st ++ P.seal s1.2 0 s1.1.h plain) = some (s1.1.mixHash P (P.seal s1.2 0 s1.1.h plain), P.pub e, P.pub a, plain) := by
    intro s0 h0 st hst s1 h1
    refine ⟨?_, ?_⟩
    · simp only [Kdf.newSession, Sym.encrypt, ← h0, hst, h1]
    · have hsl : st.length = 48 := by rw [← hst, hseal, hP.pub]
      have e1 : ∀ pl, (E.encode e ++ st ++ pl).take 32 = E.encode e := fun pl => by rw [List.append_assoc, List.take_left' he.1]
      have e2 : ∀ pl, ((E.encode e ++ st ++ pl).drop 32).take 48 = st := fun pl => by rw [List.append_assoc, List.drop_left' he.1, List.take_left' hsl]
      have e3 : ∀ pl, (E.encode e ++ st ++ pl).drop 80 = pl := fun pl => by rw [List.drop_left' (by simp [he.1, hsl])]
      have u1 : P.unseal (s0.mixKey P (P.dh e (P.pub b))).2 0 (s0.mixKey P (P.dh e (P.pub b))).1.h st = some (P.pub a) := by
        rw [← hst, Ssu2.unseal_seal hP.crypto]
      simp only [readRequest, e1, e2, e3, he.2, Option.bind_eq_bind, Option.bind_some, ← h0, hP.dh b e, u1, hP.dh b a, h1, Ssu2.unseal_seal hP.crypto]
      rfl
  obtain ⟨k1, k2⟩ := key _ rfl _ rfl _ rfl
  rw [k1]
  exact k2

theorem readReply_reply {P : Prims} (hP : P.Lawful) {E : Elligator} {f : Bytes} (hf : Encodable P E f) (s : Sym) (a e tag plain : Bytes) (ht : tag.length = 8) :
    readReply P E s a e (Kdf.reply P E s f (P.pub e) (P.pub a) tag plain).1 = some (plain, (Kdf.reply P E s f (P.pub e) (P.pub a) tag plain).2) := by
  have hseal : ∀ k n ad p, (P.seal k n ad p).length = p.length + 16 := fun k n ad p => hP.crypto.aead.len _ _ _ _
  have key : ∀ s0 : Sym × Bytes, (((s.mixHash P tag).mixHash P (P.pub f)).mixKey P (P.dh f (P.pub e))).1.mixKey P (P.dh f (P.pub a)) = s0 →
      ∀ mac, P.seal s0.2 0 s0.1.h [] = mac → ∀ s1 : Sym, s0.1.mixHash P mac = s1 → ∀ ks : Bytes × Bytes, Kdf.hkdf P s1.ck [] "" = ks →
      ∀ pl, P.seal (Kdf.hkdf P ks.2 [] "AttachPayloadKDF").1 0 s1.h plain = pl →
      Kdf.reply P E s f (P.pub e) (P.pub a) tag plain = (tag ++ E.encode f ++ mac ++ pl, dhInitialize P s1.ck ks.1, dhInitialize P s1.ck ks.2) ∧
      readReply P E s a e (tag ++ E.encode f ++ mac ++ pl) = some (plain, dhInitialize P s1.ck ks.1, dhInitialize P s1.ck ks.2) := by
    intro s0 h0 mac hmac s1 h1 ks hks pl hpl
    refine ⟨?_, ?_⟩
    · simp only [Kdf.reply, Sym.encrypt, h0, hmac, h1, hks, hpl]
    · have hml : mac.length = 16 := by rw [← hmac, hseal]; rfl
      have e1 : (tag ++ E.encode f ++ mac ++ pl).take 8 = tag := by rw [List.append_assoc, List.append_assoc, List.take_left' ht]
      have e2 : ((tag ++ E.encode f ++ mac ++ pl).drop 8).take 32 = E.encode f := by
        rw [List.append_assoc, List.append_assoc, List.drop_left' ht, List.take_left' hf.1]
      have e3 : ((tag ++ E.encode f ++ mac ++ pl).drop 40).take 16 = mac := by
        rw [List.append_assoc, List.drop_left' (by simp [ht, hf.1]), List.take_left' hml]
      have e4 : (tag ++ E.encode f ++ mac ++ pl).drop 56 = pl := by rw [List.drop_left' (by simp [ht, hf.1, hml])]
      have u1 : P.unseal s0.2 0 s0.1.h mac = some [] := by rw [← hmac, Ssu2.unseal_seal hP.crypto]
      have u2 : P.unseal (Kdf.hkdf P ks.2 [] "AttachPayloadKDF").1 0 s1.h pl = some plain := by rw [← hpl, Ssu2.unseal_seal hP.crypto]
      simp only [readReply, e1, e2, e3, e4, hf.2, Option.bind_eq_bind, Option.bind_some, hP.dh e f, hP.dh a f, h0, u1, h1, hks, u2]
      rfl
  obtain ⟨k1, k2⟩ := key _ rfl _ rfl _ rfl _ rfl _ rfl
  rw [k1]
  exact k2

/-! ## The code's messages are those of the specification -/

def toChain (c : Chains) : Chain := ⟨c.nextRoot, c.tags, c.constant, c.keys⟩

theorem toChain_dh (P : Prims) (root k : Bytes) : toChain (dhInitialize P root k) = Chain.new P root k := rfl

theorem entry_tag (P : Prims) (c : Chains) (i : Nat) : ((toChain c).entry P 0 i).tag = unle (Kdf.tagOf P c i) := by
  obtain ⟨h1, h2, h3⟩ := Kdf.chain_iter P (toChain c) i
  simp only [Chain.entry, Chain.step, h1, h3, Kdf.tagOf, Kdf.hkdf]
  rfl

theorem entry_key (P : Prims) (c : Chains) (i : Nat) : ((toChain c).entry P 0 i).key = Kdf.keyOf P c i := by
  obtain ⟨h1, h2, h3⟩ := Kdf.chain_iter P (toChain c) i
  simp only [Chain.entry, Chain.step, h2, Kdf.keyOf, Kdf.hkdf]
  rfl

theorem existing_eq {P : Prims} (hD : TBuild.Digests P) (c : Chains) (i : Nat) (plain : Bytes) :
    garlic (existing P c i plain) = prefixed (Entry.seal P ((toChain c).entry P 0 i) plain) := by
  have e : Entry.seal P ((toChain c).entry P 0 i) plain = existing P c i plain := by
    simp only [Ecies.Entry.seal, entry_tag, entry_key, Kdf.le_unle8 (take8 hD c i), existing]
    rfl
  rw [e]; rfl

theorem request_eq (P : Prims) (E : Elligator) (a e B plain : Bytes) :
    specRequest P E a e B plain = (⟨(Kdf.newSession P E a e B plain).1.ck, (Kdf.newSession P E a e B plain).1.h⟩, (Kdf.newSession P E a e B plain).2) := by
  have h1 := Kdf.C273_new_session P E a e B plain
  have h2 := C114_request_spec P E a e B plain
  simp only at h2
  rw [h2] at h1
  obtain ⟨h3, h4⟩ := Prod.mk.inj h1
  simp only [Outbound.mk.injEq, true_and] at h3
  refine Prod.ext ?_ h4
  show (specRequest P E a e B plain).1 = _
  cases hk : (specRequest P E a e B plain).1 with
  | mk ck h => rw [hk] at h3; simp only at h3; rw [h3.1, h3.2]

theorem reply_eq (P : Prims) (E : Elligator) (s : Sym) (f X A : Bytes) (t : Nat) (q : Bytes) :
    Kdf.reply P E s f X A (le 8 t) q = ((specReply P E ⟨s.ck, s.h⟩ f X A t q).1,
      dhInitialize P (specReply P E ⟨s.ck, s.h⟩ f X A t q).2.1 (specReply P E ⟨s.ck, s.h⟩ f X A t q).2.2.1,
      dhInitialize P (specReply P E ⟨s.ck, s.h⟩ f X A t q).2.1 (specReply P E ⟨s.ck, s.h⟩ f X A t q).2.2.2) := by
  simp only [Kdf.reply, specReply, Sym.mixHash, Sym.mixKey, Sym.encrypt, Kdf.hkdf, Ecies.hkdf, Kdf.ascii_nil, List.nil_append, List.append_nil, List.append_assoc]
  rfl

theorem chainsFor_eq (P : Prims) (E : Elligator) (s : Sym) (f X A tag q : Bytes) : (Kdf.reply P E s f X A tag q).2 = chainsFor P E s f X A := rfl

theorem replyTag_eq {P : Prims} (hD : TBuild.Digests P) (s : Sym) (j : Nat) : le 8 (replyTag P ⟨s.ck, s.h⟩ j) = Kdf.tagOf P (replyChains P s) j := by
  have e : replyTag P ⟨s.ck, s.h⟩ j = ((toChain (replyChains P s)).entry P 0 j).tag := rfl
  rw [e, entry_tag, Kdf.le_unle8 (take8 hD _ j)]

theorem tag_inj {P : Prims} (hD : TBuild.Digests P) {c c' : Chains} {i i' : Nat} (h : ((toChain c).entry P 0 i).tag = ((toChain c').entry P 0 i').tag) :
    Kdf.tagOf P c i = Kdf.tagOf P c' i' := by
  rw [entry_tag, entry_tag] at h
  have := congrArg (le 8) h
  rwa [Kdf.le_unle8 (take8 hD c i), Kdf.le_unle8 (take8 hD c' i')] at this

theorem distinct_of {P : Prims} (hD : TBuild.Digests P) {cs : List Chains} (h : Apart' P cs) {c : Chains} (hc : c ∈ cs) : Distinct P (toChain c) := by
  obtain ⟨j, hj⟩ := List.mem_iff_getElem?.mp hc
  exact fun i hi i' hi' e => (h j j c c hj hj i hi i' hi' (tag_inj hD e)).2

theorem apart_of {P : Prims} (hD : TBuild.Digests P) {cs : List Chains} (h : Apart' P cs) : Apart P (cs.map toChain) := by
  refine ⟨fun c hc => ?_, ?_⟩
  · obtain ⟨c', hc', rfl⟩ := List.mem_map.mp hc
    exact distinct_of hD h hc'
  · rw [List.pairwise_iff_getElem]
    intro j j' hj hj' hlt i hi i' hi' e
    simp only [List.getElem_map] at e
    have := (h j j' _ _ (List.getElem?_eq_getElem (by simpa using hj)) (List.getElem?_eq_getElem (by simpa using hj')) i hi i' hi' (tag_inj hD e)).1
    omega

theorem carries_parse {plain : Bytes} {bs : List Block} (h : Carries plain bs) : parse plain = some (bs.map Block.onWire) := by
  obtain ⟨h1, h2, fs, h3, rfl⟩ := h
  obtain ⟨fs', e1, e2, _⟩ := Wire.C274_garlic bs h1 h2
  rw [h3] at e1; cases e1
  exact e2

theorem carries_build {bs : List Block} (h1 : bs ≠ []) (h2 : ∀ b ∈ bs, b.Ok) : ∃ plain, build bs = some plain ∧ Carries plain bs := by
  obtain ⟨fs, e1, _, e3⟩ := Wire.C274_garlic bs h1 fun b hb => .inl (h2 b hb)
  exact ⟨_, e3 h2, h1, fun b hb => .inl (h2 b hb), fs, e1, rfl⟩

theorem note_genuine {C : Cfg} (hD : TBuild.Digests C.P) (c : Chains) {R : Nat} {z : Note} (hz : z.Ok R) :
    Genuine C (toChain c) 0 z.i (z.bs.map Block.onWire) (garlic (existing C.P c z.i z.plain)) := by
  refine ⟨z.plain, carries_parse hz.2.1, fun k hk => ?_, existing_eq hD c z.i z.plain⟩
  obtain ⟨b, hb, e⟩ := List.mem_map.mp hk
  cases b with
  | nextKey k' => exact hz.2.2 _ hb
  | _ => cases e

theorem read_all {C : Cfg} (hP : C.P.Lawful) (hD : TBuild.Digests C.P) {d : Bytes} {c : Chains} (hd : Distinct C.P (toChain c)) {R : Nat} (zs : List Note) :
    ∀ (n : Mgr) (w : Window), Watching C n d (toChain c) 0 w → (zs.map (·.i)).Nodup → (∀ z ∈ zs, z.Ok R ∧ w.readable z.i) →
      (recvOuts C n (zs.map fun z => (z.v, garlic (existing C.P c z.i z.plain)))).1 = zs.map fun z => .ok (cloves z.bs) := by
  induction zs with
  | nil => intros; rfl
  | cons z zs ih =>
    intro n w hw hn hz
    obtain ⟨n', e1, e2⟩ := C115_readable_partial hP hw hd (hz z List.mem_cons_self).2 z.v (note_genuine hD c (hz z List.mem_cons_self).1)
    simp only [List.map_cons, List.nodup_cons] at hn
    have := ih n' _ e2 hn.2 (by
      intro y hy
      have hne : y.i ≠ z.i := fun he => hn.1 (he ▸ List.mem_map_of_mem (f := (·.i)) hy)
      have hr := (hz y (List.mem_cons_of_mem _ hy)).2
      refine ⟨(hz y (List.mem_cons_of_mem _ hy)).1, ?_⟩
      rw [readable_take hw.le (hz z List.mem_cons_self).2 (Nat.lt_of_lt_of_le hr.1 hw.le)]
      exact .inl ⟨hr, hne⟩)
    simp only [List.map_cons, recvOuts, e1, this]
    rfl

/-- The chains of the replies `qs`, from who asked. -/
def thereOf (C : Cfg) (k : Known) (X A : Bytes) (j : Nat) (fq : Bytes × Bytes) : Chain :=
  Chain.new C.P (specReply C.P C.E k fq.1 X A (replyTag C.P k j) fq.2).2.1 (specReply C.P C.E k fq.1 X A (replyTag C.P k j) fq.2).2.2.1

def backOf (C : Cfg) (k : Known) (X A : Bytes) (j : Nat) (fq : Bytes × Bytes) : Chain :=
  Chain.new C.P (specReply C.P C.E k fq.1 X A (replyTag C.P k j) fq.2).2.1 (specReply C.P C.E k fq.1 X A (replyTag C.P k j) fq.2).2.2.2

theorem specOut_entries (C : Cfg) (k : Known) (X A : Bytes) (j : Nat) (fq : Bytes × Bytes) :
    (specOut C.P C.E C.T k X A j fq).2 = (List.range' 0 C.T.recv).map ((thereOf C k X A j fq).entry C.P 0) := by
  simp only [specOut, ← List.range_eq_range']
  rfl

/-- Who answered reads the first message that comes under the chains of one of the answers, whatever its number. -/
theorem first_read {C : Cfg} (hP : C.P.Lawful) (hT : C.T.recv ≤ 65535) {n : Mgr} {d : Bytes} {cr : Duration} {tags : TagMap} {k : Known} {X A : Bytes}
    {qs : List (Bytes × Bytes)} {j : Nat} {fq : Bytes × Bytes} (hj : qs[j]? = some fq) {nsr : TagSet} {ck h X' A' : Bytes} (ha : n.active.get d = none)
    (hp : n.pending.get d = some ⟨cr, .inbound (.sent (qs.mapIdx (specSets C.P C.E C.T k X A))
        (((qs.mapIdx fun j fq => (specOut C.P C.E C.T k X A j fq).2.map fun e => (e.tag, j)).flatten).reverse) nsr ck h X' A')
        (entryPuts [] ((qs.mapIdx (specOut C.P C.E C.T k X A)).flatMap (·.2)))⟩)
    (ht : n.tags = tags.inserts d (((qs.mapIdx (specOut C.P C.E C.T k X A)).flatMap (·.2)).map (·.tag)))
    (hap : Apart C.P (qs.mapIdx (thereOf C k X A))) (hu : ∀ i < 65535, tags.map ((thereOf C k X A j fq).entry C.P 0 i).tag = none) (v : Draw) {i0 : Nat}
    (hi0 : i0 < C.T.recv) {bs : List Block} {msg : Bytes} (hg : Genuine C (thereOf C k X A j fq) 0 i0 bs msg) :
    ∃ n', n.decrypt C v msg = (.ok (clovesOf bs), n') ∧ Watching C n' d (thereOf C k X A j fq) 0 { n := C.T.recv, found := [i0] } ∧
      ((∀ b ∈ bs, (∀ x, b ≠ .ack x) ∧ b ≠ .ackRequest) → ∃ a', Sending C n' d (backOf C k X A j fq) 0 0 a' ∧ a'.inAcks = [] ∧ a'.leaseSet = none) := by
  obtain ⟨plain, hparse, hk, rfl⟩ := hg
  have hwat : (qs.mapIdx (specOut C.P C.E C.T k X A)).flatMap (·.2) = (qs.mapIdx (thereOf C k X A)).flatMap fun c => (List.range' 0 C.T.recv).map (c.entry C.P 0) := by
    rw [List.flatMap_def, List.flatMap_def]
    congr 1
    refine List.ext_getElem? fun i => ?_
    simp only [List.getElem?_map, List.getElem?_mapIdx]
    cases qs[i]? with
    | none => rfl
    | some w => simp only [Option.map_some, specOut_entries]
  have hmem : thereOf C k X A j fq ∈ qs.mapIdx (thereOf C k X A) := List.mem_of_getElem? (i := j) (by rw [List.getElem?_mapIdx, hj]; rfl)
  have hnd := apart_nodup hT _ hap
  have hdis := hap.1 _ hmem
  have hfl : ((qs.mapIdx fun j fq => (specOut C.P C.E C.T k X A j fq).2.map fun e => (e.tag, j)).flatten).map (·.1) =
      ((qs.mapIdx (specOut C.P C.E C.T k X A)).flatMap (·.2)).map (·.tag) := by
    rw [List.map_flatten, List.flatMap_def, List.map_flatten]
    congr 1
    refine List.ext_getElem? fun i => ?_
    simp only [List.getElem?_map, List.getElem?_mapIdx]
    cases qs[i]? with
    | none => rfl
    | some w => simp only [Option.map_some, List.map_map]; rfl
  have hfind : ((qs.mapIdx fun j fq => (specOut C.P C.E C.T k X A j fq).2.map fun e => (e.tag, j)).flatten).reverse.find?
      (·.1 = ((thereOf C k X A j fq).entry C.P 0 i0).tag) = some (((thereOf C k X A j fq).entry C.P 0 i0).tag, j) := by
    refine find_rev _ (by rw [hfl, hwat]; exact hnd) (x := (((thereOf C k X A j fq).entry C.P 0 i0).tag, j)) ?_
    refine List.mem_flatten.mpr ⟨_, List.mem_of_getElem? (i := j) (by rw [List.getElem?_mapIdx, hj]; rfl), ?_⟩
    refine List.mem_map.mpr ⟨(thereOf C k X A j fq).entry C.P 0 i0, ?_, rfl⟩
    rw [specOut_entries]
    exact List.mem_map_of_mem (by simp only [List.mem_range'_1]; omega)
  have hset : (qs.mapIdx (specSets C.P C.E C.T k X A))[j]? = some (specSets C.P C.E C.T k X A j fq) := by rw [List.getElem?_mapIdx, hj]; rfl
  rw [hwat] at hp ht
  generalize hW : (qs.mapIdx (thereOf C k X A)).flatMap (fun c => (List.range' 0 C.T.recv).map (c.entry C.P 0)) = W at *
  have hw : ∀ i, i < C.T.recv → (thereOf C k X A j fq).entry C.P 0 i ∈ W := fun i hi => by
    rw [← hW]
    exact List.mem_flatMap.mpr ⟨_, hmem, List.mem_map_of_mem (by simp only [List.mem_range'_1]; omega)⟩
  have hnot : ∀ i < 65535, ¬ i < C.T.recv → ∀ e ∈ W, e.tag ≠ ((thereOf C k X A j fq).entry C.P 0 i).tag := by
    intro i hi hni e he heq
    rw [← hW] at he
    obtain ⟨c', hc', he'⟩ := List.mem_flatMap.mp he
    obtain ⟨i', hi', rfl⟩ := List.mem_map.mp he'
    simp only [List.mem_range'_1] at hi'
    have := (apart_eq hap hc' hmem (by omega) hi heq).1
    omega
  have hget : ∀ i < 65535, entryGet (entryPuts [] W) ((thereOf C k X A j fq).entry C.P 0 i).tag =
      if i < C.T.recv then some ((thereOf C k X A j fq).entry C.P 0 i) else none := by
    intro i hi
    by_cases h : i < C.T.recv
    · rw [if_pos h]; exact entryGet_puts_mem _ _ hnd _ (hw i h)
    · rw [if_neg h, entryGet_puts _ _ _ (hnot i hi h)]; rfl
  have hmap : ∀ i < 65535, n.tags.map ((thereOf C k X A j fq).entry C.P 0 i).tag = if i < C.T.recv then some d else none := by
    intro i hi
    rw [ht, inserts_map, hu i hi]
    by_cases h : i < C.T.recv
    · rw [if_pos h, if_pos (List.mem_map_of_mem (hw i h))]
    · rw [if_neg h, if_neg]
      intro hm
      obtain ⟨e, he, heq⟩ := List.mem_map.mp hm
      exact hnot i hi h e he heq
  have hopen := open_sealed hP ((thereOf C k X A j fq).entry C.P 0 i0) plain
  have htag := tag_of_sealed C.P (thereOf C k X A j fq) 0 i0 plain
  have hg0 := hget i0 (by omega)
  have hm0 := hmap i0 (by omega)
  rw [if_pos hi0] at hg0 hm0
  have hread : ∀ i, ({ n := C.T.recv, found := [i0] } : Window).readable i ↔ i < C.T.recv ∧ i ≠ i0 := fun i => by simp [Window.readable]
  generalize hS : (specSets C.P C.E C.T k X A j fq) = S at *
  have hS1 : S.1 = { chain := backOf C k X A j fq, index := 0 } := by rw [← hS]; rfl
  have hS2 : S.2 = TagSet.after C.P (specReply C.P C.E k fq.1 X A (replyTag C.P k j) fq.2).2.1 (specReply C.P C.E k fq.1 X A (replyTag C.P k j) fq.2).2.2.1 C.T.recv := by
    rw [← hS]; rfl
  generalize hN : ({ n with
      tags := n.tags.remove ((thereOf C k X A j fq).entry C.P 0 i0).tag,
      pending := n.pending.del d,
      active := n.active.put d (Active.new v.now { nsr := none, recv := S.2, send := S.1, entries := entryDel (entryPuts [] W) ((thereOf C k X A j fq).entry C.P 0 i0).tag }) } : Mgr) = N
  have hNa : N.active.get d = some (Active.new v.now { nsr := none, recv := S.2, send := S.1, entries := entryDel (entryPuts [] W) ((thereOf C k X A j fq).entry C.P 0 i0).tag }) := by rw [← hN]; exact Assoc.get_put ..
  have hNt : N.tags = n.tags.remove ((thereOf C k X A j fq).entry C.P 0 i0).tag := by rw [← hN]
  have hdec : ∀ r, Mgr.blocks d (((thereOf C k X A j fq).entry C.P 0 i0).setId, ((thereOf C k X A j fq).entry C.P 0 i0).index) bs N = (clovesOf bs, false, r) →
      n.decrypt C v (prefixed (Entry.seal C.P ((thereOf C k X A j fq).entry C.P 0 i0) plain)) = (.ok (clovesOf bs), r) := by
    intro r hr
    rw [← hN] at hr
    simp only [Mgr.decrypt, htag, hm0, Mgr.decryptTagged, ha, hp, PState.advanceIn, hg0, Inbound.existing, hfind, hset, hopen, Mgr.finish, hparse]
    rw [hr]
    simp only [Bool.false_and, Bool.false_eq_true, if_false]
  obtain ⟨n', a', b1, b2, b3, b4⟩ := blocks_active d (((thereOf C k X A j fq).entry C.P 0 i0).setId, ((thereOf C k X A j fq).entry C.P 0 i0).index) bs N _ hNa
  refine ⟨n', hdec n' b1, ⟨hT, by simpa using hi0, ⟨a', b2, ?_⟩, ?_⟩, ?_⟩
  · rw [b3]
    simp only [Active.new, hS2]
    refine ⟨rfl, rfl, rfl, fun i hi => ?_⟩
    rw [entryGet_del, hget i hi]
    by_cases h0 : i = i0
    · rw [if_pos (by rw [h0]), if_neg (by rw [hread]; exact fun h => h.2 h0)]
    · rw [if_neg (fun e => h0 (hdis i hi i0 (by omega) e))]
      by_cases h : i < C.T.recv
      · rw [if_pos h, if_pos ((hread i).mpr ⟨h, h0⟩)]
      · rw [if_neg h, if_neg (fun hr => h ((hread i).mp hr).1)]
  · intro i hi
    rw [b4, hNt]
    simp only [TagMap.remove, hmap i hi]
    by_cases h0 : i = i0
    · rw [if_pos (by rw [h0]), if_neg (by rw [hread]; exact fun h => h.2 h0)]
    · rw [if_neg (fun e => h0 (hdis i hi i0 (by omega) e))]
      by_cases h : i < C.T.recv
      · rw [if_pos h, if_pos ((hread i).mpr ⟨h, h0⟩)]
      · rw [if_neg h, if_neg (fun hr => h ((hread i).mp hr).1)]
  · intro hbs
    have e := blocks_plain d (((thereOf C k X A j fq).entry C.P 0 i0).setId, ((thereOf C k X A j fq).entry C.P 0 i0).index) bs hbs N
    rw [e] at b1
    have : N = n' := (Prod.mk.inj (Prod.mk.inj b1).2).2
    subst this
    refine ⟨_, ⟨hNa, ?_, ?_, ?_, rfl⟩, rfl, rfl⟩ <;> simp only [Active.new, hS1] <;> rfl

/-! ## C280: a destination of another implementation opens a session -/

theorem garlic_tag {b : Bytes} (h : 8 ≤ b.length) : garlicTag (garlic b) = some (unle (b.take 8)) := by
  have h12 : 12 ≤ (garlic b).length := by simp only [garlic, List.length_append, be_length]; omega
  rw [garlicTag, if_pos h12, garlic, List.drop_left' (be_length ..)]
  rfl

theorem blocks_cloves (d : Bytes) (tag : Nat × Nat) (bs : List Block) : ∀ m : Mgr, (Mgr.blocks d tag bs m).1 = clovesOf bs ∧
    (m.active.get d = none → (Mgr.blocks d tag bs m).2.2 = m) := by
  induction bs with
  | nil => intro m; exact ⟨rfl, fun _ => rfl⟩
  | cons b bs ih =>
    intro m
    cases b with
    | clove ty id ex dl bd =>
      simp only [Mgr.blocks]
      exact ⟨by rw [(ih m).1]; rfl, (ih m).2⟩
    | ackRequest =>
      simp only [Mgr.blocks]
      split
      · exact ⟨(ih _).1, fun h => by simp_all⟩
      · exact ⟨(ih m).1, (ih m).2⟩
    | ack l =>
      simp only [Mgr.blocks]
      split
      · exact ⟨(ih _).1, fun h => by simp_all⟩
      · exact ⟨(ih m).1, (ih m).2⟩
    | _ => simp only [Mgr.blocks]; exact ih m

theorem storeBody_onWire (bs : List Block) : (bs.map Block.onWire).findSome? storeBody = bs.findSome? storeBody := by
  induction bs with
  | nil => rfl
  | cons b bs ih =>
    have : storeBody b.onWire = storeBody b := by
      cases b with
      | clove ty _ _ _ _ => cases ty <;> rfl
      | _ => rfl
    simp only [List.map_cons, List.findSome?_cons, this, ih]

theorem isAck_onWire (bs : List Block) (h : ∀ b ∈ bs, (∀ x, b ≠ .ack x) ∧ b ≠ .ackRequest) : (bs.map Block.onWire).any isAck = false := by
  rw [List.any_eq_false]
  intro b hb
  obtain ⟨c, hc, rfl⟩ := List.mem_map.mp hb
  have hx := h c hc
  clear hb hc h
  cases c <;> simp_all [Block.onWire, isAck]

theorem request_accepted {P : Prims} (hP : P.Lawful) {E : Elligator} {e : Bytes} (he : Encodable P E e) (a b plain : Bytes) :
    (KeyCtx.new P b).accept P E (garlic (Kdf.newSession P E a e (P.pub b) plain).2) =
      .ok (.fresh (Kdf.newSession P E a e (P.pub b) plain).1.ck (Kdf.newSession P E a e (P.pub b) plain).1.h (P.pub e) (P.pub a), plain) := by
  have := C114_request hP he a b plain
  simp only [request_eq] at this
  exact this

theorem request_tag {P : Prims} {E : Elligator} {e : Bytes} (he : Encodable P E e) (a B plain : Bytes) :
    garlicTag (garlic (Kdf.newSession P E a e B plain).2) = some (unle ((E.encode e).take 8)) := by
  have hl : (Kdf.newSession P E a e B plain).2 = E.encode e ++ (Kdf.newSession P E a e B plain).2.drop 32 := by
    simp only [Kdf.newSession]
    rw [List.append_assoc, List.drop_left' he.1]
  rw [hl, garlic_tag (by simp only [List.length_append, he.1]; omega), List.take_append_of_le_length (by rw [he.1]; decide)]

theorem request_read {C : Cfg} (hP : C.P.Lawful) {n : Mgr} {a b e d plain body : Bytes} {bs : List Block} (hn : n.ctx = KeyCtx.new C.P b)
    (he : Encodable C.P C.E e) (hc : Carries plain bs) (hst : bs.findSome? storeBody = some body) (hrd : C.readStore body = some (d, d))
    (hu : n.tags.map (unle ((C.E.encode e).take 8)) = none) (hna : C.chk = false ∨ ∀ b ∈ bs, (∀ x, b ≠ .ack x) ∧ b ≠ .ackRequest) (v : Draw) :
    (n.decrypt C v (garlic (Kdf.newSession C.P C.E a e (C.P.pub b) plain).2)).1 = .ok (cloves bs) ∧
    (n.pending.get d = none → n.active.get d = none →
      let r := Kdf.newSession C.P C.E a e (C.P.pub b) plain
      (n.decrypt C v (garlic r.2)).2 = { n with pending := n.pending.put d (Pending.inbound v (.fresh r.1.ck r.1.h (C.P.pub e) (C.P.pub a))) }) := by
  have hacc := request_accepted hP he a b plain
  rw [← hn] at hacc
  have htag := request_tag (P := C.P) (E := C.E) he a (C.P.pub b) plain
  have hpar := carries_parse hc
  simp only [Mgr.decrypt, htag, hu, Mgr.decryptNew, hacc, hpar, storeBody_onWire, hst, hrd]
  rw [if_neg (by simp)]
  have fin : ∀ m : Mgr, (m.finish C d (0, 0) plain).1 = .ok (cloves bs) ∧ (m.active.get d = none → (m.finish C d (0, 0) plain).2 = m) := by
    intro m
    have hfl : ((Mgr.blocks d (0, 0) (bs.map Block.onWire) m).2.1 && C.chk) = false := by
      rcases hna with h | h
      · rw [h]; simp
      · rw [blocks_flag, isAck_onWire bs h]; simp
    have hb := blocks_cloves d (0, 0) (bs.map Block.onWire) m
    simp only [Mgr.finish, hpar]
    generalize Mgr.blocks d (0, 0) (bs.map Block.onWire) m = r at *
    obtain ⟨r1, r2, r3⟩ := r
    simp only at hfl hb
    simp only [hfl, Bool.false_eq_true, if_false]
    exact ⟨by rw [hb.1]; rfl, hb.2⟩
  cases hp : n.pending.get d with
  | none => exact ⟨(fin _).1, fun _ h2 => (fin _).2 h2⟩
  | some p => exact ⟨(fin _).1, fun h1 => by simp at h1⟩

/-- C280 violated: the request of a destination of another implementation that has no database store among its blocks is refused, although its keys are right; the
messages in it are lost, and nothing is kept of it. -/
theorem C280_request_violated {C : Cfg} (hP : C.P.Lawful) {n : Mgr} {a b e plain : Bytes} {bs : List Block} (hn : n.ctx = KeyCtx.new C.P b)
    (he : Encodable C.P C.E e) (hc : Carries plain bs) (hst : bs.findSome? storeBody = none) (hu : n.tags.map (unle ((C.E.encode e).take 8)) = none) (v : Draw) :
    readRequest C.P C.E b (Kdf.newSession C.P C.E a e (C.P.pub b) plain).2 = some ((Kdf.newSession C.P C.E a e (C.P.pub b) plain).1, C.P.pub e, C.P.pub a, plain) ∧
      n.decrypt C v (garlic (Kdf.newSession C.P C.E a e (C.P.pub b) plain).2) = (.error .malformed, n) := by
  refine ⟨readRequest_newSession hP he a b plain, ?_⟩
  have hacc := request_accepted hP he a b plain
  rw [← hn] at hacc
  have htag := request_tag (P := C.P) (E := C.E) he a (C.P.pub b) plain
  simp only [Mgr.decrypt, htag, hu, Mgr.decryptNew, hacc, carries_parse hc, storeBody_onWire, hst]

/-- C280 in part: a destination of another implementation (static key `a`) opens a session with a request that has any blocks, its lease set among them. All its
cloves are read. Any number of messages to it are sent as answers, and it can read each of them: it has the tag of its number, the payload is the message. After
the answer `j`, the messages under the keys that it brings are read in whatever order they come, as long as their numbers are among the first 4,096 (and
without next keys); and what is sent to it after the first of them, it can read. -/
theorem C280_called_partial {C : Cfg} (hP : C.P.Lawful) (hD : TBuild.Digests C.P) (hT : C.T.recv ≤ 65535) {n : Mgr} {a b e d plain body : Bytes} {bs : List Block}
    (hn : n.ctx = KeyCtx.new C.P b) (he : Encodable C.P C.E e) (hc : Carries plain bs) (hst : bs.findSome? storeBody = some body)
    (hrd : C.readStore body = some (d, d)) (hna : C.chk = false ∨ ∀ b ∈ bs, (∀ x, b ≠ .ack x) ∧ b ≠ .ackRequest) (hnew : n.active.get d = none ∧ n.pending.get d = none)
    (hu : n.tags.map (unle ((C.E.encode e).take 8)) = none) (v : Draw) {ys : List (Draw × Bytes)} (hys : ∀ y ∈ ys, Fits d y ∧ Encodable C.P C.E y.1.esk)
    (hyl : ys.length ≤ 65535) {j : Nat} {y : Draw × Bytes} (hj : ys[j]? = some y) :
    let rq := Kdf.newSession C.P C.E a e (C.P.pub b) plain
    let ks := fun y : Draw × Bytes => chainsFor C.P C.E rq.1 y.1.esk (C.P.pub e) (C.P.pub a)
    Apart' C.P (ys.map fun y => (ks y).1) → Free C.P n (ys.map fun y => (ks y).1) →
    ∃ n1 outs n2 msg text, n.decrypt C v (garlic rq.2) = (.ok (cloves bs), n1) ∧ sendOuts C d n1 ys = some (outs, n2) ∧ outs.length = ys.length ∧
      outs[j]? = some (garlic msg) ∧ msg.take 8 = Kdf.tagOf C.P (replyChains C.P rq.1) j ∧
      readReply C.P C.E rq.1 a e msg = some (text, ks y) ∧ Carries text [dataFor y.1 d y.2] ∧
      ∀ zs : List Note, zs ≠ [] → (zs.map (·.i)).Nodup → (∀ z ∈ zs, z.Ok C.T.recv) →
        (recvOuts C n2 (zs.map fun z => (z.v, garlic (existing C.P (ks y).1 z.i z.plain)))).1 = zs.map (fun z => .ok (cloves z.bs)) ∧
        ∀ z, zs = [z] → (∀ b ∈ z.bs, (∀ x, b ≠ .ack x) ∧ b ≠ .ackRequest) → ∀ ws : List (Draw × Bytes), ws.length ≤ 20000 → (∀ w ∈ ws, Fits d w) →
          ∃ outs n4, sendOuts C d (recvOuts C n2 (zs.map fun z => (z.v, garlic (existing C.P (ks y).1 z.i z.plain)))).2 ws = some (outs, n4) ∧ outs.length = ws.length ∧
            ∀ (i : Nat) w out, ws[i]? = some w → outs[i]? = some out → ∃ msg text, out = garlic msg ∧ readExisting C.P (ks y).2 i msg = some text ∧
              parse text = some [(dataFor w.1 d w.2).onWire] := by
  intro rq ks hap hfree
  obtain ⟨r1, r2⟩ := request_read (a := a) hP hn he hc hst hrd hu hna v
  have r2 : (n.decrypt C v (garlic rq.2)).2 = { n with pending := n.pending.put d (Pending.inbound v (.fresh rq.1.ck rq.1.h (C.P.pub e) (C.P.pub a))) } := r2 hnew.2 hnew.1
  have hqs0 : ys.map (fun y => (y.1.esk, replyPlain y.1 d y.2)) ≠ [] := by
    intro e
    rw [List.map_eq_nil_iff] at e
    rw [e] at hj; cases hj
  generalize hk : (⟨rq.1.ck, rq.1.h⟩ : Known) = k
  have hrep := replies_fresh C.P C.E hT C.chk k (C.P.pub e) (C.P.pub a) (ys.map fun y => (y.1.esk, replyPlain y.1 d y.2)) hqs0 (by simpa using hyl)
  obtain ⟨n2, f1, f2, f3, f4, f5⟩ := reply_all (C := C) (d := d) ys
    (n := { n with pending := n.pending.put d (Pending.inbound v (.fresh k.ck k.h (C.P.pub e) (C.P.pub a))) })
    hnew.1 (Assoc.get_put ..) (fun y hy => (hys y hy).1) hrep
  have hy := hys y (List.mem_of_getElem? hj)
  generalize hqs : ys.map (fun y => (y.1.esk, replyPlain y.1 d y.2)) = qs at *
  have hqj : qs[j]? = some (y.1.esk, replyPlain y.1 d y.2) := by rw [← hqs, List.getElem?_map, hj]; rfl
  have hchains : ∀ (j : Nat) (y : Draw × Bytes) (q : Bytes), thereOf C k (C.P.pub e) (C.P.pub a) j (y.1.esk, q) = toChain (ks y).1 ∧
      backOf C k (C.P.pub e) (C.P.pub a) j (y.1.esk, q) = toChain (ks y).2 := by
    intro j y q
    have h := reply_eq C.P C.E rq.1 y.1.esk (C.P.pub e) (C.P.pub a) (replyTag C.P k j) q
    rw [hk] at h
    have h := congrArg Prod.snd h
    rw [chainsFor_eq] at h
    simp only [ks, h]
    exact ⟨rfl, rfl⟩
  have hths : qs.mapIdx (thereOf C k (C.P.pub e) (C.P.pub a)) = (ys.map fun y => (ks y).1).map toChain := by
    refine List.ext_getElem? fun i => ?_
    simp only [List.getElem?_map, List.getElem?_mapIdx, ← hqs]
    cases ys[i]? with
    | none => rfl
    | some w => simp only [Option.map_some, (hchains i w _).1]
  have hmem : (ks y).1 ∈ ys.map fun y => (ks y).1 := List.mem_map_of_mem (f := fun y => (ks y).1) (List.mem_of_getElem? hj)
  have hfirst : ∀ (v : Draw) {i0 : Nat} (_ : i0 < C.T.recv) {bs : List Block} {msg : Bytes} (_ : Genuine C (toChain (ks y).1) 0 i0 bs msg),
      ∃ n', n2.decrypt C v msg = (.ok (clovesOf bs), n') ∧ Watching C n' d (toChain (ks y).1) 0 { n := C.T.recv, found := [i0] } ∧
        ((∀ b ∈ bs, (∀ x, b ≠ .ack x) ∧ b ≠ .ackRequest) → ∃ a', Sending C n' d (toChain (ks y).2) 0 0 a' ∧ a'.inAcks = [] ∧ a'.leaseSet = none) := by
    intro v i0 hi0 bs msg hg
    have := first_read (C := C) hP hT (n := n2) (d := d) (k := k) (X := C.P.pub e) (A := C.P.pub a) (qs := qs) hqj (by rw [f2]; exact hnew.1) f4 f5
      (by rw [hths]; exact apart_of hD hap) (by
        intro i hi
        rw [(hchains j y _).1, entry_tag]
        exact hfree _ hmem i hi) v hi0 (by rw [(hchains j y _).1]; exact hg)
    rw [(hchains j y _).1, (hchains j y _).2] at this
    exact this
  obtain ⟨text, ht1, ht2⟩ := carries_build (bs := [dataFor y.1 d y.2]) (by simp) (by
    intro b hb
    simp only [List.mem_singleton] at hb
    subst hb
    obtain ⟨g1, g2, g3, g4⟩ := hy.1
    exact ⟨g1, g2, g3, by simp only [List.length_append, be_length]; omega⟩)
  have hpl : replyPlain y.1 d y.2 = text := by
    have : build [dataClove y.1 0 d y.2] = some text := ht1
    rw [replyPlain, this]; rfl
  have hmsg : (specOut C.P C.E C.T k (C.P.pub e) (C.P.pub a) j (y.1.esk, text)).1 =
      (Kdf.reply C.P C.E rq.1 y.1.esk (C.P.pub e) (C.P.pub a) (Kdf.tagOf C.P (replyChains C.P rq.1) j) text).1 := by
    rw [← replyTag_eq hD, hk, reply_eq, hk]
    rfl
  have h8 := take8 hD (replyChains C.P rq.1) j
  subst hk
  refine ⟨_, _, n2, (Kdf.reply C.P C.E rq.1 y.1.esk (C.P.pub e) (C.P.pub a) (Kdf.tagOf C.P (replyChains C.P rq.1) j) text).1, text,
    Prod.ext r1 r2, f1, ?_, ?_, ?_, ?_, ht2, ?_⟩
  · rw [List.length_map, List.length_mapIdx, ← hqs, List.length_map]
  · rw [List.getElem?_map, List.getElem?_mapIdx, hqj, hpl]
    simp only [Option.map_some, hmsg]
    rfl
  · simp only [Kdf.reply, List.append_assoc]
    exact List.take_left' h8
  · rw [readReply_reply hP hy.2 rq.1 a e _ text h8]
    rfl
  · intro zs hz0 hznd hzok
    cases zs with
    | nil => exact absurd rfl hz0
    | cons z zs =>
      have hz := hzok z List.mem_cons_self
      obtain ⟨n3, e1, e2, e3⟩ := hfirst z.v hz.1 (note_genuine hD (ks y).1 hz)
      simp only [List.map_cons, List.nodup_cons] at hznd
      have hrest := read_all hP hD (distinct_of hD hap hmem) zs n3 _ e2 hznd.2 (by
        intro w hw
        have hne : w.i ≠ z.i := fun he => hznd.1 (he ▸ List.mem_map_of_mem (f := (·.i)) hw)
        have hwo := hzok w (List.mem_cons_of_mem _ hw)
        exact ⟨hwo, hwo.1, by simpa using hne⟩)
      simp only [List.map_cons, recvOuts, e1, hrest]
      refine ⟨rfl, ?_⟩
      intro z' hzz hack ws hwl hwf
      obtain ⟨rfl, rfl⟩ := List.cons.inj hzz
      simp only [List.map_nil, recvOuts]
      obtain ⟨a', s1, s2, s3⟩ := e3 (by
        intro b hb
        obtain ⟨c, hc, rfl⟩ := List.mem_map.mp hb
        have hx := hack c hc
        clear hb hc hack
        cases c <;> simp_all [Block.onWire])
      obtain ⟨outs, n4, a4, o1, o2, _, o4⟩ := sendOuts_spec ws s1 s2 s3 (by simpa [Ratchet.ratchetThreshold] using hwl) hwf
      refine ⟨outs, n4, o1, o2, fun i w out hw ho => ?_⟩
      obtain ⟨text, p1, p2, p3⟩ := o4 i w out hw ho
      rw [Nat.zero_add, ← existing_eq hD] at p3
      exact ⟨_, text, p3, readExisting_existing hP hD _ _ _, p1⟩

theorem answer_read {C : Cfg} (hP : C.P.Lawful) (hT : C.T.recv ≤ 65535) {s : Ends} {m0 m : Mgr} {xs : List (Draw × Bytes)} (h : Asking C s m0 m xs) {q : Nat}
    {x : Draw × Bytes} (hq : xs[q]? = some x) {j : Nat} (hj : j < C.T.nsr) (hN : C.T.nsr ≤ 65535) {f plain : Bytes} (hye : Encodable C.P C.E f)
    {bs : List Block} (hparse : parse plain = some bs) (hbs : ∀ b ∈ bs, (∀ x, b ≠ .ack x) ∧ b ≠ .ackRequest)
    {R : Bytes × Bytes × Bytes × Bytes} (hR : specReply C.P C.E (s.request C x).1 f (C.P.pub x.1.esk) (C.P.pub s.a) (replyTag C.P (s.request C x).1 j) plain = R)
    (hd : Distinct C.P (Chain.new C.P R.2.1 R.2.2.2)) (hu : ∀ i < 65535, m.tags.map ((Chain.new C.P R.2.1 R.2.2.2).entry C.P 0 i).tag = none) (v : Draw) :
    ∃ m2, m.decrypt C v (prefixed R.1) = (.ok (clovesOf bs), m2) ∧
      ∀ z, Fits s.remote z → ∃ m3 a3, m2.encrypt C z.1 s.remote z.2 =
          (.ok (prefixed (Entry.seal C.P ((Chain.new C.P R.2.1 R.2.2.1).entry C.P 0 0) (replyPlain z.1 s.remote z.2))), m3) ∧
        Sending C m3 s.remote (Chain.new C.P R.2.1 R.2.2.1) 0 1 a3 ∧ a3.inAcks = [] ∧ a3.leaseSet = none ∧
        Watching C m3 s.remote (Chain.new C.P R.2.1 R.2.2.2) 0 { n := C.T.recv, found := [] } := by
  rcases h.pend with ⟨h1, _⟩ | ⟨cr, nsr, h1, h2⟩
  · subst h1; cases hq
  have hn := h2 q x j hq hj
  have ho : (xs.map (s.outbound C))[q]? = some (s.outbound C x) := by rw [List.getElem?_map, hq]; rfl
  have hl8 : ∀ n, (le 8 n).length = 8 := fun n => by simp [le]
  have hhr := handle_spec hP (E := C.E) C.chk (s.request C x).1 s.a x.1.esk f plain hye ((s.replyChain C x).entry C.P 0 j)
  have hhr : (s.outbound C x).handleReply C.P C.E C.chk ((s.replyChain C x).entry C.P 0 j) (prefixed R.1) =
    .ok (plain, TagSet.after C.P R.2.1 R.2.2.1 0, TagSet.after C.P R.2.1 R.2.2.2 0) := by rw [← hR]; exact hhr
  have htag : garlicTag (prefixed R.1) = some ((s.replyChain C x).entry C.P 0 j).tag := by
    have hl : R.1 = le 8 ((s.replyChain C x).entry C.P 0 j).tag ++ (R.1.drop 8) := by
      rw [← hR]
      simp only [specReply]
      rw [List.drop_left' (hl8 _)]; rfl
    rw [hl]
    have h12 : 12 ≤ (prefixed (le 8 ((s.replyChain C x).entry C.P 0 j).tag ++ R.1.drop 8)).length := by
      simp only [prefixed, List.length_append, be_length, hl8]; omega
    rw [garlicTag, if_pos h12, prefixed, List.drop_left' (be_length ..), List.take_left' (hl8 _)]
    exact congrArg some (Ssu2.unle_le8 _ (tag_lt ..))
  have htd : m.tags.map ((s.replyChain C x).entry C.P 0 j).tag = some s.remote := by
    rw [h.tags, if_pos]
    exact List.mem_flatMap.mpr ⟨x, List.mem_of_getElem? hq, List.mem_map_of_mem (List.mem_map_of_mem (by simp only [List.mem_range'_1]; omega))⟩
  have hnx := nexts_after C.P R.2.1 R.2.2.2 C.T.recv 0 (by omega)
  clear hR
  generalize hbk : Chain.new C.P R.2.1 R.2.2.2 = back at *
  generalize hth : Chain.new C.P R.2.1 R.2.2.1 = there at *
  refine ⟨{ m with
      tags := (m.tags.remove ((s.replyChain C x).entry C.P 0 j).tag).inserts s.remote (((List.range' 0 C.T.recv).map (back.entry C.P 0)).map (·.tag)),
      pending := m.pending.put s.remote ⟨cr, .awaitEs (xs.map (s.outbound C)) (TagSet.after C.P R.2.1 R.2.2.1 0)
        (TagSet.after C.P R.2.1 R.2.2.2 (0 + C.T.recv)) (C.P.pub s.b) (nsrDel nsr ((s.replyChain C x).entry C.P 0 j).tag)
        (entryPuts [] ((List.range' 0 C.T.recv).map (back.entry C.P 0)))⟩ }, ?_, ?_⟩
  · simp only [Mgr.decrypt, htag, htd, Mgr.decryptTagged, h.active, h1, PState.advanceIn, hn, ho, hhr, hnx, Mgr.finish, hparse, blocks_plain s.remote _ _ hbs]
    simp only [Bool.false_and, Bool.false_eq_true, if_false]
    subst hbk
    rfl
  intro z hz
  obtain ⟨hzb, _⟩ := reply_payload hz
  have hnext := next_after C.P R.2.1 R.2.2.1 (j := 0) (by decide)
  subst hth
  refine ⟨{ m with
      tags := (m.tags.remove ((s.replyChain C x).entry C.P 0 j).tag).inserts s.remote (((List.range' 0 C.T.recv).map (back.entry C.P 0)).map (·.tag)),
      pending := (m.pending.put s.remote ⟨cr, .awaitEs (xs.map (s.outbound C)) (TagSet.after C.P R.2.1 R.2.2.1 0)
        (TagSet.after C.P R.2.1 R.2.2.2 (0 + C.T.recv)) (C.P.pub s.b) (nsrDel nsr ((s.replyChain C x).entry C.P 0 j).tag)
        (entryPuts [] ((List.range' 0 C.T.recv).map (back.entry C.P 0)))⟩).del s.remote,
      active := m.active.put s.remote (Active.new z.1.now { nsr := some (z.1.now, nsrDel nsr ((s.replyChain C x).entry C.P 0 j).tag, xs.map (s.outbound C)), recv := TagSet.after C.P R.2.1 R.2.2.2 (0 + C.T.recv), send := TagSet.after C.P R.2.1 R.2.2.1 1, entries := entryPuts [] ((List.range' 0 C.T.recv).map (back.entry C.P 0)) }) },
    Active.new z.1.now _, ?_, ⟨Assoc.get_put .., rfl, rfl, rfl, rfl⟩, rfl, rfl, hT, by simp, ⟨_, Assoc.get_put .., ?_, ?_, rfl, fun i hi => ?_⟩, fun i hi => ?_⟩
  · simp only [Mgr.encrypt, h.active, Assoc.get_put, PState.advanceOut, hnext, hzb]
    rfl
  · subst hbk; simp only [Active.new, TagSet.after, Nat.zero_add]
  · simp only [Active.new, TagSet.after, Nat.zero_add]
  · have := firsts_get hd hT 0 hi
    simp only [Active.new, Window.readable, List.not_mem_nil, not_false_eq_true, and_true]
    exact this
  · simp only [inserts_map, Window.readable, List.not_mem_nil, not_false_eq_true, and_true]
    have hm := firsts_mem hd hT 0 hi
    by_cases h : i < C.T.recv
    · rw [if_pos (hm.mpr h), if_pos h]
    · rw [if_neg (fun hh => h (hm.mp hh)), if_neg h]
      simp only [TagMap.remove, hu i hi, ite_self]

/-- C280 in part: a message to a destination of another implementation (static key `b`) goes out as a request that it can read, with the lease set and the message in
it. Each of the first answers that it may send, whatever it carries, is read. The next message to it is the first of the established session, it can read it and
all that follow; and its messages are read, in whatever order they come. -/
theorem C280_calls_partial {C : Cfg} (hP : C.P.Lawful) (hD : TBuild.Digests C.P) (hT : C.T.recv ≤ 65535) (hN : C.T.nsr ≤ 65535) {m : Mgr} {a b d : Bytes}
    (hctx : m.ctx = KeyCtx.new C.P a) (hrem : m.remotes.get d = some (C.P.pub b)) (hnew : m.active.get d = none ∧ m.pending.get d = none)
    {x : Draw × Bytes} (hx : Sendable x.1 m.id d m.leaseSet x.2) (hxe : Encodable C.P C.E x.1.esk) :
    let plain := requestPlain x.1 m.id d m.leaseSet x.2
    let rq := Kdf.newSession C.P C.E a x.1.esk (C.P.pub b) plain
    Apart' C.P [replyChains C.P rq.1] →
    ∃ m1, m.encrypt C x.1 d x.2 = (.ok (garlic rq.2), m1) ∧ readRequest C.P C.E b rq.2 = some (rq.1, C.P.pub x.1.esk, C.P.pub a, plain) ∧
      (∃ bs, parse plain = some bs ∧ clovesOf bs = requestCloves x.1 m.id d m.leaseSet x.2) ∧
      ∀ (j : Nat) (f text : Bytes) (bs : List Block), j < C.T.nsr → Encodable C.P C.E f → Carries text bs → (∀ b ∈ bs, (∀ x, b ≠ .ack x) ∧ b ≠ .ackRequest) →
        let ks := chainsFor C.P C.E rq.1 f (C.P.pub x.1.esk) (C.P.pub a)
        Apart' C.P [replyChains C.P rq.1, ks.2] → Free C.P m [ks.2] → ∀ v, ∃ m2,
          m1.decrypt C v (garlic (Kdf.reply C.P C.E rq.1 f (C.P.pub x.1.esk) (C.P.pub a) (Kdf.tagOf C.P (replyChains C.P rq.1) j) text).1) = (.ok (cloves bs), m2) ∧
          ∀ z, Fits d z → ∃ m3 first, m2.encrypt C z.1 d z.2 = (.ok (garlic (existing C.P ks.1 0 first)), m3) ∧ Carries first [dataFor z.1 d z.2] ∧
            (∀ zs : List Note, (zs.map (·.i)).Nodup → (∀ z ∈ zs, z.Ok C.T.recv) →
              (recvOuts C m3 (zs.map fun z => (z.v, garlic (existing C.P ks.2 z.i z.plain)))).1 = zs.map (fun z => .ok (cloves z.bs))) ∧
            ∀ ws : List (Draw × Bytes), ws.length < 20000 → (∀ w ∈ ws, Fits d w) → ∃ outs m4, sendOuts C d m3 ws = some (outs, m4) ∧ outs.length = ws.length ∧
              ∀ (i : Nat) w out, ws[i]? = some w → outs[i]? = some out → ∃ msg text, out = garlic msg ∧ readExisting C.P ks.1 (1 + i) msg = some text ∧
                parse text = some [(dataFor w.1 d w.2).onWire] := by
  intro plain rq hap
  generalize hs : (⟨a, b, m.id, d, m.leaseSet⟩ : Ends) = s
  have hask : Asking C s m m [] := by
    subst hs
    exact ⟨hctx, rfl, rfl, hnew.1, .inl ⟨rfl, hnew.2, hrem⟩, fun t => by simp⟩
  have hreq : s.request C x = (⟨rq.1.ck, rq.1.h⟩, rq.2) := by
    subst hs
    exact request_eq C.P C.E a x.1.esk (C.P.pub b) plain
  have hchain : s.replyChain C x = toChain (replyChains C.P rq.1) := by
    rw [Ends.replyChain, hreq]; rfl
  obtain ⟨m1, e1, e2⟩ := ask_step hN hask (x := x) (by subst hs; exact hx) (by
    simp only [List.nil_append, List.map_cons, List.map_nil, hchain]
    exact apart_of hD hap)
  obtain ⟨_, bs0, o1, o2, _⟩ := open_request (C := C) s (x := x) (by subst hs; exact hx)
  refine ⟨m1, ?_, readRequest_newSession hP hxe a b plain, ⟨bs0, by subst hs; exact o1, by subst hs; exact o2⟩, ?_⟩
  · rw [hreq] at e1
    subst hs
    exact e1
  intro j f text bs hj hf hc hna ks hap2 hfree v
  have hrep := reply_eq C.P C.E rq.1 f (C.P.pub x.1.esk) (C.P.pub a) (replyTag C.P ⟨rq.1.ck, rq.1.h⟩ j) text
  rw [replyTag_eq hD] at hrep
  generalize hR : specReply C.P C.E ⟨rq.1.ck, rq.1.h⟩ f (C.P.pub x.1.esk) (C.P.pub a) (replyTag C.P ⟨rq.1.ck, rq.1.h⟩ j) text = R at hrep
  have hks : ks = (dhInitialize C.P R.2.1 R.2.2.1, dhInitialize C.P R.2.1 R.2.2.2) := by
    have := congrArg Prod.snd hrep
    rw [chainsFor_eq] at this
    exact this
  have h2 : toChain ks.2 = Chain.new C.P R.2.1 R.2.2.2 := by rw [hks]; rfl
  have h1 : toChain ks.1 = Chain.new C.P R.2.1 R.2.2.1 := by rw [hks]; rfl
  have hd2 : Distinct C.P (toChain ks.2) := distinct_of hD hap2 (by simp)
  obtain ⟨m2, g1, g2⟩ := answer_read hP hT e2 (q := 0) (x := x) rfl hj hN hf (carries_parse hc) (R := R) (by
      intro b hb
      obtain ⟨c, hc', rfl⟩ := List.mem_map.mp hb
      have hx := hna c hc'
      clear hb hc' hna
      cases c <;> simp_all [Block.onWire]) (by rw [hreq]; subst hs; exact hR) (by rw [← h2]; exact hd2) (by
      intro i hi
      rw [← h2, e2.tags, if_neg, entry_tag]
      · exact hfree _ List.mem_cons_self i hi
      · intro hm
        simp only [List.nil_append, List.flatMap_cons, List.flatMap_nil, List.append_nil, Ends.replyEntries, hchain, List.mem_map, List.mem_range'_1] at hm
        obtain ⟨_, ⟨i', hi', rfl⟩, he⟩ := hm
        have := (hap2 0 1 _ _ rfl rfl i' (by omega) i hi (tag_inj hD he)).1
        omega) v
  have hrm : s.remote = d := by subst hs; rfl
  rw [hrm] at g2
  refine ⟨m2, by rw [hrep]; exact g1, fun z hz => ?_⟩
  obtain ⟨m3, a3, w1, w2, w3, w4, w5⟩ := g2 z hz
  obtain ⟨first, ht1, ht2⟩ := carries_build (bs := [dataFor z.1 d z.2]) (by simp) (by
    intro b hb
    simp only [List.mem_singleton] at hb
    subst hb
    obtain ⟨g1, g2, g3, g4⟩ := hz
    exact ⟨g1, g2, g3, by simp only [List.length_append, be_length]; omega⟩)
  have hpl : replyPlain z.1 d z.2 = first := by
    have : build [dataClove z.1 0 d z.2] = some first := ht1
    rw [replyPlain, this]; rfl
  rw [← h2] at w5
  rw [← h1] at w1 w2
  refine ⟨m3, first, ?_, ht2, ?_, ?_⟩
  · rw [w1, hpl, existing_eq hD]
  · intro zs hnd hok
    refine read_all hP hD hd2 (R := C.T.recv) zs m3 _ w5 hnd ?_
    intro w hw
    have := hok w hw
    exact ⟨this, this.1, by simp⟩
  · intro ws hwl hwf
    obtain ⟨outs, m4, a4, o1, o2, _, o4⟩ := sendOuts_spec ws w2 w3 w4 (by simp only [Ratchet.ratchetThreshold]; omega) hwf
    refine ⟨outs, m4, o1, o2, fun i w out hw ho => ?_⟩
    obtain ⟨text, p1, p2, p3⟩ := o4 i w out hw ho
    rw [← existing_eq hD] at p3
    exact ⟨_, text, p3, readExisting_existing hP hD _ _ _, p1⟩

/-! ### The hypotheses can be met -/

theorem spread_digests : TBuild.Digests spreadPrims := ⟨fun _ => by simp [spreadPrims], fun k b => by rw [spread_len]; decide⟩

theorem spread_one {c : Chains} {b : Nat} (h : From (toChain c) b) : Apart' spreadPrims [c] := by
  intro j j' c1 c2 h1 h2 i hi i' hi' e
  obtain ⟨rfl, rfl⟩ : j = 0 ∧ c = c1 := by cases j <;> simp_all
  obtain ⟨rfl, rfl⟩ : j' = 0 ∧ c = c2 := by cases j' <;> simp_all
  refine ⟨rfl, spread_distinct h i hi i' hi' ?_⟩
  rw [entry_tag, entry_tag, e]

theorem spread_two {c c' : Chains} {b b' : Nat} (h : From (toChain c) b) (h' : From (toChain c') b') (hbb : b + 2 ^ 18 < b' ∨ b' + 2 ^ 18 < b) :
    Apart' spreadPrims [c, c'] := by
  have hne : ∀ i < 65535, ∀ i' < 65535, Kdf.tagOf spreadPrims c i ≠ Kdf.tagOf spreadPrims c' i' := fun i hi i' hi' e =>
    spread_apart h h' hbb i hi i' hi' (by rw [entry_tag, entry_tag, e])
  have same : ∀ {c : Chains} {b : Nat}, From (toChain c) b → ∀ i < 65535, ∀ i' < 65535, Kdf.tagOf spreadPrims c i = Kdf.tagOf spreadPrims c i' → i = i' :=
    fun h i hi i' hi' e => spread_distinct h i hi i' hi' (by rw [entry_tag, entry_tag, e])
  intro j j' c1 c2 h1 h2 i hi i' hi' e
  match j, j', h1, h2 with
  | 0, 0, h1, h2 => cases h1; cases h2; exact ⟨rfl, same h i hi i' hi' e⟩
  | 0, 1, h1, h2 => cases h1; cases h2; exact absurd e (hne i hi i' hi')
  | 1, 0, h1, h2 => cases h1; cases h2; exact absurd e.symm (hne i' hi' i hi)
  | 1, 1, h1, h2 => cases h1; cases h2; exact ⟨rfl, same h' i hi i' hi' e⟩
  | 0, j' + 2, _, h2 => cases h2
  | 1, j' + 2, _, h2 => cases h2
  | j + 2, _, h1, _ => cases h1

/-- A time, the lease set, a message and some padding. -/
def peerBlocks : List Block := [.dateTime 7, .clove .databaseStore 5 9000000000 .localNode [1, 2], .clove .data 6 9500000000 (.destination idB) [3], .padding [0, 0]]
def peerText : Bytes := Wire.layout ((peerBlocks.filterMap Wire.garlicBlock).flatten)

theorem peer_carries : Carries peerText peerBlocks := by
  refine ⟨by decide, ?_, _, rfl, rfl⟩
  intro b hb
  simp only [peerBlocks, List.mem_cons, List.not_mem_nil, or_false] at hb
  rcases hb with rfl | rfl | rfl | rfl
  · exact .inl (by show 7 < 2 ^ 32; decide)
  · exact .inl ⟨by decide, by decide, trivial, by decide⟩
  · exact .inl ⟨by decide, by decide, (by show idB.length = 32; decide), by decide⟩
  · exact .inr ⟨_, rfl, by decide⟩

theorem peer_acks : ∀ b ∈ peerBlocks, (∀ x, b ≠ .ack x) ∧ b ≠ .ackRequest := by
  intro b hb
  simp only [peerBlocks, List.mem_cons, List.not_mem_nil, or_false] at hb
  rcases hb with rfl | rfl | rfl | rfl <;> simp

def peerNote (v : Draw) (i : Nat) : Note := ⟨v, i, peerText, peerBlocks⟩

theorem peerNote_ok (v : Draw) {i R : Nat} (h : i < R) : (peerNote v i).Ok R := ⟨h, peer_carries, by simp [peerNote, peerBlocks]⟩

/-- What the peer that called has after its request. -/
def peerAsked : Sym := (Kdf.newSession spreadPrims chatCfg.E [2] [9] (spreadPrims.pub [3]) peerText).1

theorem peer_bases : From (toChain (chainsFor spreadPrims chatCfg.E peerAsked [7] (spreadPrims.pub [9]) (spreadPrims.pub [2])).1) 44040206 ∧
    From (toChain (chainsFor spreadPrims chatCfg.E peerAsked [20] (spreadPrims.pub [9]) (spreadPrims.pub [2])).1) 71303182 := by decide +kernel

/-- The request is answered twice. The peer goes on after the second answer; its fourth message arrives before its second. -/
example (v : Draw) := C280_called_partial (C := chatCfg) spreadPrims_lawful spread_digests (by decide) (n := chatN) (a := [2]) (b := [3]) (e := [9]) (d := idA)
  (plain := peerText) (body := [1, 2]) (bs := peerBlocks) rfl (chat_sendable 9 0).2 peer_carries rfl rfl (.inr peer_acks) ⟨rfl, rfl⟩ rfl v
  (ys := [(chatDraw 7, [3]), (chatDraw 20, [4])])
  (by intro x hx
      simp only [List.mem_cons, List.not_mem_nil, or_false] at hx
      rcases hx with rfl | rfl <;> exact ⟨chat_fits _ (by decide) _ _, (chat_sendable _ 0).2⟩)
  (by decide) (j := 1) rfl (spread_two peer_bases.1 peer_bases.2 (by decide)) (fun _ _ _ _ => rfl)

example (v : Draw) : ([peerNote v 3, peerNote v 1].map (·.i)).Nodup ∧ ∀ z ∈ [peerNote v 3, peerNote v 1], z.Ok chatCfg.T.recv :=
  ⟨by simp [peerNote], by
    intro z hz
    simp only [List.mem_cons, List.not_mem_nil, or_false] at hz
    rcases hz with rfl | rfl <;> exact peerNote_ok v (by decide)⟩

/-- A request with a message and without lease set. -/
example (v : Draw) := C280_request_violated (C := chatCfg) spreadPrims_lawful (n := chatN) (a := [2]) (b := [3]) (e := [9])
  (plain := Wire.layout ([Block.clove .data 6 9500000000 (.destination idB) [3]].filterMap Wire.garlicBlock).flatten)
  (bs := [.clove .data 6 9500000000 (.destination idB) [3]]) rfl (chat_sendable 9 0).2
  ⟨by simp, fun b hb => by simp only [List.mem_singleton] at hb; subst hb; exact .inl ⟨by decide, by decide, (by show idB.length = 32; decide), by decide⟩, _, rfl, rfl⟩ rfl rfl v

/-- What is known after the request to the peer. -/
def chatAsked : Sym := (Kdf.newSession spreadPrims chatCfg.E [2] [9] (spreadPrims.pub [3]) (requestPlain (chatDraw 9) idA idB [3] [2])).1

theorem asked_bases : From (toChain (replyChains spreadPrims chatAsked)) 17825802 ∧
    From (toChain (chainsFor spreadPrims chatCfg.E chatAsked [20] (spreadPrims.pub [9]) (spreadPrims.pub [2])).2) 71303182 := by decide +kernel

/-- The third answer of the peer arrives first. -/
example (v : Draw) : ∃ m1, chatM.encrypt chatCfg (chatDraw 9) idB [2] =
      (.ok (garlic (Kdf.newSession spreadPrims chatCfg.E [2] [9] (spreadPrims.pub [3]) (requestPlain (chatDraw 9) idA idB [3] [2])).2), m1) ∧
    (m1.decrypt chatCfg v (garlic (Kdf.reply spreadPrims chatCfg.E chatAsked [20] (spreadPrims.pub [9]) (spreadPrims.pub [2])
      (Kdf.tagOf spreadPrims (replyChains spreadPrims chatAsked) 2) peerText).1)).1 = .ok (cloves peerBlocks) := by
  obtain ⟨m1, e1, _, _, e2⟩ := C280_calls_partial (C := chatCfg) spreadPrims_lawful spread_digests (by decide) (by decide) (m := chatM) (a := [2]) (b := [3]) (d := idB)
    rfl rfl ⟨rfl, rfl⟩ (x := (chatDraw 9, [2])) (chat_sendable 9 2).1 (chat_sendable 9 2).2 (spread_one asked_bases.1)
  obtain ⟨m2, h, _⟩ := e2 2 [20] peerText peerBlocks (by decide) (chat_sendable 20 0).2 peer_carries peer_acks
    (spread_two asked_bases.1 asked_bases.2 (by decide)) (fun _ _ _ _ => rfl) v
  exact ⟨m1, e1, congrArg Prod.fst h⟩

end Emissary.GarlicPeer
