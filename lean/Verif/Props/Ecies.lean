import Verif.Model.Ecies
import Verif.Props.Ratchet
/-!
# Properties of setting up garlic sessions
-/
namespace Emissary.Ecies
open Emissary Emissary.I2np
open Emissary.Ssu2 (Prims)
open Emissary.Ntcp2 (unle le)
open Emissary.Ratchet

/-! ## Specification: the messages of the ECIES-X25519-AEAD-Ratchet specification -/

/-- HKDF with two outputs. -/
def hkdf (P : Prims) (salt ikm info : Bytes) : Bytes × Bytes :=
  (P.hmac (P.hmac salt ikm) (info ++ [1]), P.hmac (P.hmac salt ikm) (P.hmac (P.hmac salt ikm) (info ++ [1]) ++ info ++ [2]))

/-- What both ends know after the request: chaining key and hash. -/
structure Known where
  ck : Bytes
  h : Bytes

/-- The request (pattern `e, es, s, ss`) from static key `a` and ephemeral key `e` to the public key `B`. -/
def specRequest (P : Prims) (E : Elligator) (a e B plain : Bytes) : Known × Bytes :=
  let ck := P.sha lblName
  let h := P.sha ck
  let h := P.sha (h ++ B)
  let h := P.sha (h ++ P.pub e)
  let k1 := hkdf P ck (P.dh e B) []
  let s := P.seal k1.2 0 h (P.pub a)
  let h := P.sha (h ++ s)
  let k2 := hkdf P k1.1 (P.dh a B) []
  let c := P.seal k2.2 0 h plain
  (⟨k2.1, P.sha (h ++ c)⟩, E.encode e ++ (s ++ c))

/-- The reply (pattern `e, ee, se`) with ephemeral key `f` to the ephemeral key `X` and static key `A`, and the keys of the two tag sets:
root, from the initiator, from the responder. -/
def specReply (P : Prims) (E : Elligator) (k : Known) (f X A : Bytes) (tag : Nat) (plain : Bytes) : Bytes × Bytes × Bytes × Bytes :=
  let h := P.sha (k.h ++ le 8 tag)
  let h := P.sha (h ++ P.pub f)
  let ck := (hkdf P k.ck (P.dh f X) []).1
  let k2 := hkdf P ck (P.dh f A) []
  let mac := P.seal k2.2 0 h []
  let h := P.sha (h ++ mac)
  let ab := hkdf P k2.1 [] []
  let att := (hkdf P ab.2 [] lblAttach).1
  (le 8 tag ++ (E.encode f ++ (mac ++ P.seal att 0 h plain)), k2.1, ab.1, ab.2)

/-- The tags of replies. -/
def specReplySet (P : Prims) (k : Known) : TagSet := TagSet.new P k.ck (hkdf P k.ck [] lblReplyTags).1

/-- A key whose public key Elligator2 encodes. -/
def Encodable (P : Prims) (E : Elligator) (e : Bytes) : Prop := (E.encode e).length = 32 ∧ E.decode (E.encode e) = some (P.pub e)

/-- An I2NP garlic message: length and data. -/
def garlic (m : Bytes) : Bytes := be 4 m.length ++ m

/-! ## C114 -/

/-- The request is the one of the specification. -/
theorem C114_request_spec (P : Prims) (E : Elligator) (a e B plain : Bytes) :
    let r := specRequest P E a e B plain
    (KeyCtx.new P a).newSession P E B e plain = ({ state := r.1.h, sk := a, esk := e, ck := r.1.ck }, r.2) := by
  simp only [KeyCtx.newSession, KeyCtx.new, specRequest, mix, hkdf, List.nil_append, List.append_assoc, List.append_nil]

/-- C114: the responder accepts the request and gets the payload, the two keys of the initiator and the same secrets. -/
theorem C114_request {P : Prims} (hP : P.Lawful) {E : Elligator} {e : Bytes} (he : Encodable P E e) (a b plain : Bytes) :
    let r := specRequest P E a e (P.pub b) plain
    (KeyCtx.new P b).accept P E (garlic r.2) = .ok (.fresh r.1.ck r.1.h (P.pub e) (P.pub a), plain) := by
  intro r
  have hseal : ∀ k n ad p, (P.seal k n ad p).length = p.length + 16 := fun k n ad p => hP.crypto.aead.len _ _ _ _
  have hpub := hP.pub a
  have hlen : (garlic r.2).length = 100 + plain.length := by
    simp only [garlic, r, specRequest, List.length_append, be_length, he.1, hseal, hpub]; omega
  generalize hs : P.seal (hkdf P (P.sha lblName) (P.dh e (P.pub b)) []).2 0 (P.sha (P.sha (P.sha (P.sha lblName) ++ P.pub b) ++ P.pub e)) (P.pub a) = s at *
  have hsl : s.length = 48 := by rw [← hs, hseal, hpub]
  have e1 : ((garlic r.2).drop 4).take 32 = E.encode e := by
    simp only [garlic, r, specRequest]
    rw [List.drop_left' (be_length ..), List.take_left' he.1]
  have e2 : (garlic r.2).drop 36 = s ++ (P.seal (hkdf P (hkdf P (P.sha lblName) (P.dh e (P.pub b)) []).1 (P.dh a (P.pub b)) []).2 0
      (P.sha (P.sha (P.sha (P.sha (P.sha lblName) ++ P.pub b) ++ P.pub e) ++ s)) plain) := by
    simp only [garlic, r, specRequest]
    rw [← List.append_assoc, List.drop_left' (by simp [he.1]), hs]
  have e3 : ((garlic r.2).drop 36).take 48 = s := by rw [e2, List.take_left' hsl]
  have e4 : (garlic r.2).drop 84 = ((garlic r.2).drop 36).drop 48 := by rw [List.drop_drop]
  rw [e2, List.drop_left' hsl] at e4
  unfold KeyCtx.accept
  rw [if_neg (by omega)]
  simp only [e1, he.2, e3, e4, KeyCtx.new, mix, hP.dh b e]
  have k1 : P.hmac (P.hmac (P.sha lblName) (P.dh e (P.pub b))) (P.hmac (P.hmac (P.sha lblName) (P.dh e (P.pub b))) [1] ++ [2]) =
      (hkdf P (P.sha lblName) (P.dh e (P.pub b)) []).2 := by simp [hkdf]
  rw [k1, ← hs, Ssu2.unseal_seal hP.crypto, hs]
  simp only [hP.dh b a]
  have k2 : P.hmac (P.hmac (P.hmac (P.hmac (P.sha lblName) (P.dh e (P.pub b))) [1]) (P.dh a (P.pub b)))
      (P.hmac (P.hmac (P.hmac (P.hmac (P.sha lblName) (P.dh e (P.pub b))) [1]) (P.dh a (P.pub b))) [1] ++ [2]) =
      (hkdf P (hkdf P (P.sha lblName) (P.dh e (P.pub b)) []).1 (P.dh a (P.pub b)) []).2 := by simp [hkdf]
  rw [k2, Ssu2.unseal_seal hP.crypto]
  subst hs
  simp only [r, specRequest, hkdf, List.append_nil, List.nil_append]
  rfl

/-- The state of a tag set after `j` entries. -/
def TagSet.after (P : Prims) (root key : Bytes) (j : Nat) : TagSet := { chain := (Chain.new P root key).iter P j, index := j }

/-- The `j`-th entry of a tag set. -/
def entryAt (P : Prims) (root key : Bytes) (j : Nat) : Entry := (Chain.new P root key).entry P 0 j

theorem next_after (P : Prims) (root key : Bytes) {j : Nat} (h : j < 65535) :
    (TagSet.after P root key j).next P = (some (entryAt P root key j), TagSet.after P root key (j + 1)) := by
  have e : ((TagSet.after P root key j).index + 1 < 2 ^ 16) := by simp only [TagSet.after]; omega
  rw [TagSet.next, if_pos e]
  rfl

theorem nexts_after (P : Prims) (root key : Bytes) (n : Nat) : ∀ j, j + n ≤ 65535 → TagSet.nexts P n (TagSet.after P root key j) =
    some ((List.range' j n).map (entryAt P root key), TagSet.after P root key (j + n)) := by
  induction n with
  | zero => intro j _; rfl
  | succ n ih =>
    intro j h
    rw [TagSet.nexts, next_after P root key (by omega)]
    simp only [ih (j + 1) (by omega), List.range'_succ, List.map_cons, Option.bind_eq_bind, Option.bind_some, Option.pure_def]
    rw [show j + 1 + n = j + (n + 1) by omega]

/-- The tag of the `j`-th reply. -/
def replyTag (P : Prims) (k : Known) (j : Nat) : Nat := (entryAt P k.ck (hkdf P k.ck [] lblReplyTags).1 j).tag

/-- The responder answers a request several times. -/
def replies (P : Prims) (E : Elligator) (T : Tags) (chk : Bool) : Inbound → List (Bytes × Bytes) → Option (List (Bytes × List Entry) × Inbound)
  | i, [] => some ([], i)
  | i, (f, q) :: qs => match i.reply P E T chk f q with
    | (.ok m, i) => (replies P E T chk i qs).map fun r => (m :: r.1, r.2)
    | _ => none

/-- What the specification says the `j`-th reply and the entries of its receive set are. -/
def specOut (P : Prims) (E : Elligator) (T : Tags) (k : Known) (X A : Bytes) (j : Nat) (fq : Bytes × Bytes) : Bytes × List Entry :=
  let r := specReply P E k fq.1 X A (replyTag P k j) fq.2
  (r.1, (List.range T.recv).map (entryAt P r.2.1 r.2.2.1))

/-- The sets of the responder that belong to it. -/
def specSets (P : Prims) (E : Elligator) (T : Tags) (k : Known) (X A : Bytes) (j : Nat) (fq : Bytes × Bytes) : TagSet × TagSet :=
  let r := specReply P E k fq.1 X A (replyTag P k j) fq.2
  (TagSet.after P r.2.1 r.2.2.2 0, TagSet.after P r.2.1 r.2.2.1 T.recv)

theorem makeReply_spec (P : Prims) (E : Elligator) {T : Tags} (hT : T.recv ≤ 65535) (k : Known) (X A : Bytes) (j : Nat) (fq : Bytes × Bytes) :
    makeReply P E T k.ck k.h X A fq.1 (replyTag P k j) fq.2 =
      some ((specOut P E T k X A j fq).1, (specOut P E T k X A j fq).2, specSets P E T k X A j fq) := by
  have h := nexts_after P (specReply P E k fq.1 X A (replyTag P k j) fq.2).2.1 (specReply P E k fq.1 X A (replyTag P k j) fq.2).2.2.1 T.recv 0
    (by omega)
  rw [Nat.zero_add] at h
  have h0 : ∀ a b, TagSet.after P a b 0 = TagSet.new P a b := fun _ _ => rfl
  simp only [h0, specReply, hkdf, List.nil_append, List.append_nil] at h
  simp only [makeReply, replyKeys, mix, split, payloadKey, Option.bind_eq_bind, h, Option.bind_some, Option.pure_def]
  simp only [specOut, specSets, specReply, hkdf, List.nil_append, List.append_nil, h0, List.append_assoc, List.range_eq_range']

theorem replySet_spec (P : Prims) (k : Known) : replySet P k.ck = TagSet.after P k.ck (hkdf P k.ck [] lblReplyTags).1 0 := rfl

theorem reply_fresh (P : Prims) (E : Elligator) (T : Tags) (chk : Bool) (ck h X A f q : Bytes) :
    Inbound.reply P E T chk (.fresh ck h X A) f q = Inbound.reply P E T chk (.sent [] [] (replySet P ck) ck h X A) f q := by
  simp only [Inbound.reply, List.nil_append, List.append_nil, List.length_nil]

theorem replies_sent (P : Prims) (E : Elligator) {T : Tags} (hT : T.recv ≤ 65535) (chk : Bool) (k : Known) (X A : Bytes) (qs : List (Bytes × Bytes)) :
    ∀ sets idx, sets.length + qs.length ≤ 65535 →
    replies P E T chk (.sent sets idx (TagSet.after P k.ck (hkdf P k.ck [] lblReplyTags).1 sets.length) k.ck k.h X A) qs =
      some (qs.mapIdx (fun j fq => specOut P E T k X A (sets.length + j) fq),
        .sent (sets ++ qs.mapIdx fun j fq => specSets P E T k X A (sets.length + j) fq)
          (((qs.mapIdx fun j fq => (specOut P E T k X A (sets.length + j) fq).2.map fun e => (e.tag, sets.length + j)).flatten).reverse ++ idx)
          (TagSet.after P k.ck (hkdf P k.ck [] lblReplyTags).1 (sets.length + qs.length)) k.ck k.h X A) := by
  induction qs with
  | nil => intros; simp [replies]
  | cons fq qs ih =>
    intro sets idx h
    simp only [List.length_cons] at h
    have hm := makeReply_spec P E hT k X A sets.length fq
    simp only [replies, Inbound.reply, next_after P _ _ (show sets.length < 65535 by omega)]
    rw [← replyTag, hm]
    have := ih (sets ++ [specSets P E T k X A sets.length fq]) (((specOut P E T k X A sets.length fq).2.map fun e => (e.tag, sets.length)).reverse ++ idx)
      (by simp only [List.length_append, List.length_singleton]; omega)
    simp only [List.length_append, List.length_singleton] at this
    simp only [this, Option.map_some, List.mapIdx_cons, List.flatten_cons, List.reverse_append, List.append_assoc, List.singleton_append, Nat.add_zero]
    have e : ∀ j, sets.length + 1 + j = sets.length + (j + 1) := by omega
    simp only [e, List.length_cons, Nat.add_comm qs.length 1]

theorem replies_fresh (P : Prims) (E : Elligator) {T : Tags} (hT : T.recv ≤ 65535) (chk : Bool) (k : Known) (X A : Bytes) (qs : List (Bytes × Bytes))
    (h0 : qs ≠ []) (h : qs.length ≤ 65535) :
    replies P E T chk (.fresh k.ck k.h X A) qs =
      some (qs.mapIdx (specOut P E T k X A),
        .sent (qs.mapIdx (specSets P E T k X A))
          (((qs.mapIdx fun j fq => (specOut P E T k X A j fq).2.map fun e => (e.tag, j)).flatten).reverse)
          (TagSet.after P k.ck (hkdf P k.ck [] lblReplyTags).1 qs.length) k.ck k.h X A) := by
  have := replies_sent P E hT chk k X A qs [] [] (by simpa using h)
  simp only [List.length_nil, Nat.zero_add, List.nil_append, List.append_nil] at this
  rw [← this]
  cases qs with
  | nil => exact absurd rfl h0
  | cons fq qs => simp only [replies, reply_fresh, replySet_spec]

theorem tag_lt (P : Prims) (c : Chain) (id j : Nat) : (c.entry P id j).tag < 2 ^ 64 := by
  have h := unbe_lt (((P.hmac (P.hmac (c.iter P j).tagData (c.iter P j).tagConst)
    (P.hmac (P.hmac (c.iter P j).tagData (c.iter P j).tagConst) (lblTagGen ++ [1]) ++ lblTagGen ++ [2])).take 8).reverse)
  have e : (c.entry P id j).tag = unle ((P.hmac (P.hmac (c.iter P j).tagData (c.iter P j).tagConst)
    (P.hmac (P.hmac (c.iter P j).tagData (c.iter P j).tagConst) (lblTagGen ++ [1]) ++ lblTagGen ++ [2])).take 8) := rfl
  rw [e, unle]
  refine Nat.lt_of_lt_of_le h ?_
  rw [show (2 : Nat) ^ 64 = 256 ^ 8 by decide]
  exact Nat.pow_le_pow_right (by decide) (by simp only [List.length_reverse, List.length_take]; omega)

/-- The tag a garlic message begins with (session/mod.rs 571-575). -/
def tagOf (msg : Bytes) : Nat := unle ((msg.drop 4).take 8)

/-- C114: the initiator reads the reply with the entry of its tag, gets the payload and the same two tag sets. -/
theorem handle_spec {P : Prims} (hP : P.Lawful) {E : Elligator} (chk : Bool) (k : Known) (a e f q : Bytes) (hf : Encodable P E f) (t : Entry) :
    let r := specReply P E k f (P.pub e) (P.pub a) t.tag q
    Outbound.handleReply P E chk { state := k.h, sk := a, esk := e, ck := k.ck } t (garlic r.1) =
      .ok (q, TagSet.after P r.2.1 r.2.2.1 0, TagSet.after P r.2.1 r.2.2.2 0) := by
  intro r
  have hseal : ∀ k n ad p, (P.seal k n ad p).length = p.length + 16 := fun k n ad p => hP.crypto.aead.len _ _ _ _
  have hl8 : ∀ n, (le 8 n).length = 8 := fun n => by simp [le]
  have h0 : ∀ a b, TagSet.after P a b 0 = TagSet.new P a b := fun _ _ => rfl
  have hlen : (garlic r.1).length = 76 + q.length := by
    simp only [garlic, r, specReply, List.length_append, be_length, hf.1, hseal, hl8, List.length_nil]; omega
  have e1 : ((garlic r.1).drop 12).take 32 = E.encode f := by
    simp only [garlic, r, specReply]
    rw [← List.append_assoc, List.drop_left' (by simp [hl8]), List.take_left' hf.1]
  generalize hm : P.seal (hkdf P (hkdf P k.ck (P.dh f (P.pub e)) []).1 (P.dh f (P.pub a)) []).2 0 (P.sha (P.sha (k.h ++ le 8 t.tag) ++ P.pub f)) [] = mac at *
  have hml : mac.length = 16 := by rw [← hm, hseal]; rfl
  have e2 : ((garlic r.1).drop 44).take 16 = mac := by
    simp only [garlic, r, specReply]
    rw [hm, ← List.append_assoc, ← List.append_assoc, List.drop_left' (by simp [hl8, hf.1]), List.take_left' hml]
  have e3 : (garlic r.1).drop 60 = P.seal (hkdf P (hkdf P (hkdf P (hkdf P k.ck (P.dh f (P.pub e)) []).1 (P.dh f (P.pub a)) []).1 [] []).2 [] lblAttach).1 0
      (P.sha (P.sha (P.sha (k.h ++ le 8 t.tag) ++ P.pub f) ++ mac)) q := by
    simp only [garlic, r, specReply]
    rw [hm, ← List.append_assoc, ← List.append_assoc, ← List.append_assoc, List.drop_left' (by simp [hl8, hf.1, hml])]
  unfold Outbound.handleReply
  rw [if_neg (by omega)]
  simp only [e1, hf.2, e2, e3, replyKeys, mix, split, payloadKey, hP.dh e f, hP.dh a f]
  subst hm
  simp only [hkdf, List.append_nil, List.nil_append]
  rw [Ssu2.unseal_seal hP.crypto]
  simp only []
  rw [Ssu2.unseal_seal hP.crypto]
  simp only [r, specReply, hkdf, List.append_nil, List.nil_append, h0]

theorem find_rev {α : Type} (l : List (Nat × α)) (h : (l.map (·.1)).Nodup) {x : Nat × α} (hx : x ∈ l) : l.reverse.find? (·.1 = x.1) = some x := by
  have hne : ∀ y ∈ l, y.1 = x.1 → y = x := by
    induction l with
    | nil => cases hx
    | cons z l ih =>
      simp only [List.map_cons, List.nodup_cons, List.mem_map] at h
      intro y hy e
      rcases List.mem_cons.mp hx with rfl | hx'
      · rcases List.mem_cons.mp hy with rfl | hy
        · rfl
        · exact absurd ⟨y, hy, e⟩ h.1
      · rcases List.mem_cons.mp hy with rfl | hy
        · exact absurd ⟨x, hx', e.symm⟩ h.1
        · exact ih h.2 hx' y hy e
  cases hf : l.reverse.find? (·.1 = x.1) with
  | none => exact absurd (List.find?_eq_none.mp hf x (List.mem_reverse.mpr hx)) (by simp)
  | some y =>
    rw [hne y (List.mem_reverse.mp (List.mem_of_find?_eq_some hf)) (by simpa using List.find?_some hf)]

/-- C114: for every request, every number of replies and every reply the initiator reads with the tags it keeps:

* the reply carries the tag of the initiator's entry,
* the initiator gets its payload,
* what the initiator sends with is what the responder watches for, and the other way round,
* a message sent with any of the entries the responder watches for is read, and the responder goes on with the sets of the reply that the
  initiator has read (if no two of the tags it watches for are equal). -/
theorem C114_established {P : Prims} (hP : P.Lawful) {E : Elligator} {T : Tags} (hT : T.recv ≤ 65535) (hN : T.nsr ≤ 65535) (chk : Bool)
    (a b e plain : Bytes) (he : Encodable P E e) (qs : List (Bytes × Bytes)) (h0 : qs ≠ []) (hq : qs.length ≤ 65535) (hqs : ∀ x ∈ qs, Encodable P E x.1) :
    ∃ inb tags sent inb',
      let r := (KeyCtx.new P a).newSession P E (P.pub b) e plain
      (KeyCtx.new P b).accept P E (garlic r.2) = .ok (inb, plain) ∧ r.1.replyTags P T = some tags ∧ tags.length = T.nsr ∧
      replies P E T chk inb qs = some (sent, inb') ∧ sent.length = qs.length ∧
      ∀ (j : Nat) (f q m : Bytes) (es : List Entry) (t : Entry), qs[j]? = some (f, q) → sent[j]? = some (m, es) → tags[j]? = some t →
        tagOf (garlic m) = t.tag ∧ es.length = T.recv ∧
        ∃ send recv recv' : TagSet, r.1.handleReply P E chk t (garlic m) = .ok (q, send, recv) ∧
          TagSet.nexts P T.recv send = some (es, recv') ∧
          ((sent.flatMap fun s => s.2.map (·.tag)).Nodup → ∀ x ∈ es, ∀ p, tagOf (garlic (Entry.seal P x p)) = x.tag ∧
            inb'.existing P chk x.tag x (garlic (Entry.seal P x p)) = .ok (p, recv, recv')) := by
  have hreq := C114_request hP he a b plain
  have hspec := C114_request_spec P E a e (P.pub b) plain
  dsimp only at hreq hspec
  generalize hk : (specRequest P E a e (P.pub b) plain).1 = k at *
  have hl8 : ∀ n, (le 8 n).length = 8 := fun n => by simp [le]
  have hn := nexts_after P k.ck (hkdf P k.ck [] lblReplyTags).1 T.nsr 0 (by omega)
  refine ⟨.fresh k.ck k.h (P.pub e) (P.pub a), (List.range' 0 T.nsr).map (entryAt P k.ck (hkdf P k.ck [] lblReplyTags).1),
    qs.mapIdx (specOut P E T k (P.pub e) (P.pub a)), _, ?_, ?_, ?_, replies_fresh P E hT chk k (P.pub e) (P.pub a) qs h0 hq, ?_, ?_⟩
  · rw [hspec]; exact hreq
  · rw [hspec]
    simp only [Outbound.replyTags, replySet_spec]
    rw [hn]; rfl
  · simp
  · simp
  · intro j f q m es t hj hm ht
    rw [List.getElem?_mapIdx, hj] at hm
    simp only [Option.map_some, Option.some.injEq] at hm
    have htt : t = entryAt P k.ck (hkdf P k.ck [] lblReplyTags).1 j := by
      rw [List.getElem?_map] at ht
      obtain ⟨i, hi, rfl⟩ := Option.map_eq_some_iff.mp ht
      have hlt : j < T.nsr := by
        have := (List.getElem?_eq_some_iff.mp hi).1
        simpa using this
      rw [List.getElem?_range' hlt, Option.some.injEq] at hi
      rw [← hi]; simp
    have hjq : (f, q) ∈ qs := List.mem_of_getElem? hj
    have htag : t.tag = replyTag P k j := by rw [htt, replyTag]
    have hm1 : m = (specReply P E k f (P.pub e) (P.pub a) t.tag q).1 := by rw [htag]; exact (congrArg Prod.fst hm).symm
    have hm2 : es = (List.range' 0 T.recv).map (entryAt P (specReply P E k f (P.pub e) (P.pub a) t.tag q).2.1
        (specReply P E k f (P.pub e) (P.pub a) t.tag q).2.2.1) := by
      rw [htag, ← List.range_eq_range']; exact (congrArg Prod.snd hm).symm
    have hgs : ∀ n (l : Bytes), n < 2 ^ 64 → tagOf (garlic (le 8 n ++ l)) = n := by
      intro n l h
      rw [tagOf, garlic, List.drop_left' (be_length ..), List.take_left' (hl8 _), Ssu2.unle_le8 _ h]
    have hh := handle_spec hP chk k a e f q (hqs _ hjq) t
    have hx := nexts_after P (specReply P E k f (P.pub e) (P.pub a) t.tag q).2.1 (specReply P E k f (P.pub e) (P.pub a) t.tag q).2.2.1 T.recv 0 (by omega)
    refine ⟨?_, by rw [hm2]; simp, _, _, _, by rw [hspec, hm1]; exact hh, by rw [hm2]; exact hx, ?_⟩
    · rw [hm1]; exact hgs _ _ (by rw [htt]; exact tag_lt ..)
    · intro hnd x hxe p
      have hxl : x.tag < 2 ^ 64 := by
        rw [hm2] at hxe
        obtain ⟨i, _, rfl⟩ := List.mem_map.mp hxe
        exact tag_lt ..
      refine ⟨hgs _ _ hxl, ?_⟩
      have hfind : ((qs.mapIdx fun j fq => (specOut P E T k (P.pub e) (P.pub a) j fq).2.map fun e => (e.tag, j)).flatten).reverse.find?
          (·.1 = x.tag) = some (x.tag, j) := by
        refine find_rev _ ?_ (x := (x.tag, j)) ?_
        · have e1 : ((qs.mapIdx fun j fq => (specOut P E T k (P.pub e) (P.pub a) j fq).2.map fun e => (e.tag, j)).flatten).map (·.1) =
              (qs.mapIdx (specOut P E T k (P.pub e) (P.pub a))).flatMap fun s => s.2.map (·.tag) := by
            rw [List.map_flatten, List.flatMap_def]
            congr 1
            refine List.ext_getElem? fun i => ?_
            simp only [List.getElem?_map, List.getElem?_mapIdx]
            cases qs[i]? <;> simp
          rw [e1]; exact hnd
        · refine List.mem_flatten.mpr ⟨es.map fun e => (e.tag, j), ?_, List.mem_map.mpr ⟨x, hxe, rfl⟩⟩
          refine List.mem_of_getElem? (i := j) ?_
          rw [List.getElem?_mapIdx, hj]
          simp only [Option.map_some, hm]
      have hset : (qs.mapIdx (specSets P E T k (P.pub e) (P.pub a)))[j]? = some (specSets P E T k (P.pub e) (P.pub a) j (f, q)) := by
        rw [List.getElem?_mapIdx, hj]; rfl
      have hopen : Entry.open P x (garlic (Entry.seal P x p)) = some p := by
        rw [Entry.open, garlic, Entry.seal, ← List.append_assoc, List.drop_left' (by simp [hl8]), Ssu2.unseal_seal hP.crypto]
      simp only [Inbound.existing, hfind, hset, specSets, hopen, ← htag, Nat.zero_add]

/-- C114, with the numbers of the code: a request can be answered sixteen times, and after an answer the responder watches for 4096 messages. -/
theorem C114_numbers {P : Prims} (hP : P.Lawful) {E : Elligator} (chk : Bool) (a b e plain : Bytes) (he : Encodable P E e) (f q : Bytes) (hf : Encodable P E f) :
    ∃ inb tags m es inb',
      let r := (KeyCtx.new P a).newSession P E (P.pub b) e plain
      (KeyCtx.new P b).accept P E (garlic r.2) = .ok (inb, plain) ∧ r.1.replyTags P Tags.code = some tags ∧ tags.length = 16 ∧
      replies P E Tags.code chk inb [(f, q)] = some ([(m, es)], inb') ∧ es.length = 4096 := by
  obtain ⟨inb, tags, sent, inb', h1, h2, h3, h4, h5, h6⟩ := C114_established hP (T := Tags.code) (by decide) (by decide) chk a b e plain he [(f, q)] (by simp) (by simp)
    (by intro x hx; rw [List.mem_singleton.mp hx]; exact hf)
  match sent, h5 with
  | [(m, es)], _ =>
    have h16 : tags.length = 16 := h3
    have ht : tags[0]? = some (tags[0]'(by omega)) := List.getElem?_eq_getElem _
    exact ⟨inb, tags, m, es, inb', h1, h2, h16, h4, (h6 0 f q m es _ rfl rfl ht).2.1⟩

theorem samplePrims_lawful : samplePrims.Lawful :=
  ⟨Ssu2.toyC_lawful, fun a b => by simp [samplePrims, TBuild.toyQ, UInt8.add_comm], fun a => by simp [samplePrims, TBuild.toyQ]⟩

def sampleE : Elligator := { encode := samplePrims.pub, decode := some }

/-- Two replies with payloads [1] and [2] to a request: the hypotheses hold, and no two tags are equal. -/
example := C114_established samplePrims_lawful (E := sampleE) (T := ⟨3, 2, 1⟩) (by decide) (by decide) true [1] [3] [2] [9, 9]
  ⟨by decide, by decide⟩ [([5], [1]), ([6], [2])] (by decide) (by decide)
  (by intro x _; exact ⟨by simp [sampleE, samplePrims, TBuild.toyQ], rfl⟩)

example : ((replies samplePrims sampleE ⟨3, 2, 1⟩ true
      (match (KeyCtx.new samplePrims [3]).accept samplePrims sampleE
          (garlic ((KeyCtx.new samplePrims [1]).newSession samplePrims sampleE (samplePrims.pub [3]) [2] [9, 9]).2) with
        | .ok r => r.1
        | .error _ => .poisoned)
      [([5], [1]), ([6], [2])]).map fun r => r.1.map fun s => s.2.map (·.tag)) = some [[123, 189], [75, 237]] := by decide +kernel

end Emissary.Ecies
