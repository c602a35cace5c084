import Verif.Model.Ratchet
/-!
# Setting up garlic sessions

Models `destination/session/{context,inbound,outbound}.rs`: the `NewSession` and `NewSessionReply` messages and the first `ExistingSession`
message. Random private keys are arguments. Zeroing of secrets and logging are not represented. The number of tags generated at a time is a
parameter, so that small cases can be evaluated; the code's values are `Tags.code`.
-/
namespace Emissary.Ecies
open Emissary Emissary.I2np
open Emissary.Ssu2 (Prims)
open Emissary.Ntcp2 (unle le)
open Emissary.Ratchet

/-- Elligator2: `encode` is `Randomized::to_representative` of a private key (with its tweak), `decode` is `from_representative` with
`to_montgomery`. -/
structure Elligator where
  encode : Bytes → Bytes
  decode : Bytes → Option Bytes

/-- How many tags are generated: for replies (`NSR_TAG_COUNT`, outbound.rs 45), for a receive tag set (`NUM_TAGS_TO_GENERATE`, mod.rs 72)
and from the old set before a ratchet (`NUM_EXTRA_TAGS_TO_GENERATE`, session.rs 67). -/
structure Tags where
  nsr : Nat
  recv : Nat
  extra : Nat

/-- outbound.rs 45, mod.rs 72, session.rs 67. -/
def Tags.code : Tags := { nsr := 16, recv := 4096, extra := 128 }

/-- `PROTOCOL_NAME` (context.rs 49). -/
def lblName : Bytes := "Noise_IKelg2+hs2_25519_ChaChaPoly_SHA256".toUTF8.toList
/-- destination/session/outbound.rs 106, inbound.rs 181. -/
def lblReplyTags : Bytes := "SessionReplyTags".toUTF8.toList
/-- destination/session/outbound.rs 214, inbound.rs 248, 388. -/
def lblAttach : Bytes := "AttachPayloadKDF".toUTF8.toList

/-- `KeyContext` (context.rs 65-83); the public key is `P.pub sk`. -/
structure KeyCtx where
  ck : Bytes
  inState : Bytes
  outState : Bytes
  sk : Bytes
deriving Repr, DecidableEq

/-- `KeyContext::from_private_key` (89-104). -/
def KeyCtx.new (P : Prims) (sk : Bytes) : KeyCtx :=
  let ck := P.sha lblName
  let outState := P.sha ck
  { ck, outState, inState := P.sha (outState ++ P.pub sk), sk }

/-- The chaining key and the cipher key from a shared secret (204-208, 236-240, 338-342, 376-380). -/
def mix (P : Prims) (ck shared : Bytes) : Bytes × Bytes :=
  let temp := P.hmac ck shared
  let ck := P.hmac temp [1]
  (ck, P.hmac temp (ck ++ [2]))

/-- `OutboundSession` (outbound.rs 60-78); the destination's id is not used. -/
structure Outbound where
  state : Bytes
  sk : Bytes
  esk : Bytes
  ck : Bytes
deriving Repr, DecidableEq

/-- `create_outbound_session` (context.rs 126-290), without the making of the clove set `plain` (143-175). -/
def KeyCtx.newSession (P : Prims) (E : Elligator) (c : KeyCtx) (remote esk plain : Bytes) : Outbound × Bytes :=
  let state := P.sha (P.sha (c.outState ++ remote) ++ P.pub esk)
  let (ck, key) := mix P c.ck (P.dh esk remote)
  let static := P.seal key 0 state (P.pub c.sk)
  let state := P.sha (state ++ static)
  let (ck, key) := mix P ck (P.dh c.sk remote)
  let payload := P.seal key 0 state plain
  ({ state := P.sha (state ++ payload), sk := c.sk, esk, ck }, E.encode esk ++ static ++ payload)

/-- `InboundSessionState` (inbound.rs 45-101). In `sent`, `sets` are the pairs of send and receive set by index and `idx` the mapping of
tags to indices, the last insertion first. -/
inductive Inbound where
  | fresh (ck state remoteE remoteS : Bytes)
  | sent (sets : List (TagSet × TagSet)) (idx : List (Nat × Nat)) (nsr : TagSet) (ck state remoteE remoteS : Bytes)
  | poisoned
deriving Repr, DecidableEq

/-- `create_inbound_session` (context.rs 295-409). The message begins with its length (four bytes). The decrypted static key has 32 bytes
because its ciphertext has 48, so `expect` (366) does not fail. -/
def KeyCtx.accept (P : Prims) (E : Elligator) (c : KeyCtx) (msg : Bytes) : Except Err (Inbound × Bytes) := do
  if msg.length < 100 then throw .malformed
  let some remoteE := E.decode ((msg.drop 4).take 32) | throw .malformed
  let state := P.sha (c.inState ++ remoteE)
  let (ck, key) := mix P c.ck (P.dh c.sk remoteE)
  let static := (msg.drop 36).take 48
  let some remoteS := P.unseal key 0 state static | throw .crypto
  let state := P.sha (state ++ static)
  let (ck, key) := mix P ck (P.dh c.sk remoteS)
  let payload := msg.drop 84
  let some plain := P.unseal key 0 state payload | throw .crypto
  return (.fresh ck (P.sha (state ++ payload)) remoteE remoteS, plain)

/-- `n` calls of `next_entry` that must succeed; `none` is the panic of `expect`.
destination/session/outbound.rs 112. -/
def TagSet.nexts (P : Prims) : Nat → TagSet → Option (List Entry × TagSet)
  | 0, t => some ([], t)
  | n + 1, t => do
    let (some e, t) := t.next P | none
    let (es, t) ← TagSet.nexts P n t
    return (e :: es, t)

/-- The tag set for replies (outbound.rs 104-108, inbound.rs 179-182). -/
def replySet (P : Prims) (ck : Bytes) : TagSet := TagSet.new P ck (P.hmac (P.hmac ck []) (lblReplyTags ++ [1]))

/-- `generate_new_session_reply_tags` (outbound.rs 103-113). -/
def Outbound.replyTags (P : Prims) (T : Tags) (o : Outbound) : Option (List Entry) :=
  (TagSet.nexts P T.nsr (replySet P o.ck)).map (·.1)

/-- The keys of a reply (inbound.rs 197-219, outbound.rs 169-186): chaining key and cipher key. -/
def replyKeys (P : Prims) (ck ee es : Bytes) : Bytes × Bytes := mix P (P.hmac (P.hmac ck ee) [1]) es

/-- The two halves of the chaining key (inbound.rs 237-239, outbound.rs 198-200): initiator to responder and back. -/
def split (P : Prims) (ck : Bytes) : Bytes × Bytes :=
  let temp := P.hmac ck []
  let k := P.hmac temp [1]
  (k, P.hmac temp (k ++ [2]))

/-- destination/session/outbound.rs 210-220, inbound.rs 244-254. -/
def payloadKey (P : Prims) (k : Bytes) : Bytes := P.hmac (P.hmac k []) (lblAttach ++ [1])

/-- The common part of the two branches of `create_new_session_reply` (inbound.rs 196-289, 336-435): the message, the new entries and the
pair of tag sets. -/
def makeReply (P : Prims) (E : Elligator) (T : Tags) (ck state remoteE remoteS esk : Bytes) (tag : Nat) (payload : Bytes) :
    Option (Bytes × List Entry × TagSet × TagSet) := do
  let (ck, key) := replyKeys P ck (P.dh esk remoteE) (P.dh esk remoteS)
  let state := P.sha (P.sha (state ++ le 8 tag) ++ P.pub esk)
  let mac := P.seal key 0 state []
  let state := P.sha (state ++ mac)
  let (recvKey, sendKey) := split P ck
  let send := TagSet.new P ck sendKey
  let recv := TagSet.new P ck recvKey
  let payload := P.seal (payloadKey P sendKey) 0 state payload
  let (entries, recv) ← TagSet.nexts P T.recv recv
  return (le 8 tag ++ E.encode esk ++ mac ++ payload, entries, send, recv)

/-- `create_new_session_reply` (inbound.rs 147-449). -/
def Inbound.reply (P : Prims) (E : Elligator) (T : Tags) (chk : Bool) (i : Inbound) (esk payload : Bytes) : Out (Bytes × List Entry) × Inbound :=
  match i with
  | .fresh ck state remoteE remoteS =>
    match (replySet P ck).next P with
    | (none, _) => (.panic, .poisoned)
    | (some e, nsr) =>
      match makeReply P E T ck state remoteE remoteS esk e.tag payload with
      | none => (.panic, .poisoned)
      | some (msg, entries, send, recv) =>
        (.ok (msg, entries), .sent [(send, recv)] ((entries.map fun e => (e.tag, 0)).reverse) nsr ck state remoteE remoteS)
  | .sent sets idx nsr ck state remoteE remoteS =>
    match nsr.next P with
    | (none, _) => (.panic, .poisoned)
    | (some e, nsr) =>
      match makeReply P E T ck state remoteE remoteS esk e.tag payload with
      | none => (.panic, .poisoned)
      | some (msg, entries, send, recv) =>
        (.ok (msg, entries), .sent (sets ++ [(send, recv)]) ((entries.map fun e => (e.tag, sets.length)).reverse ++ idx) nsr ck state remoteE remoteS)
  | .poisoned => (invalid chk, .poisoned)

/-- The message an entry is for (inbound.rs 485-488, session.rs 897-900). -/
def Entry.open (P : Prims) (e : Entry) (msg : Bytes) : Option Bytes := P.unseal e.key e.index (le 8 e.tag) (msg.drop 12)

/-- The message of an entry (session.rs 424-428, 1095-1099). -/
def Entry.seal (P : Prims) (e : Entry) (plain : Bytes) : Bytes := le 8 e.tag ++ P.seal e.key e.index (le 8 e.tag) plain

/-- `handle_existing_session` (inbound.rs 456-491): payload, send set and receive set. The session is poisoned in any case. A message of less
than 12 bytes would panic; the caller has read the tag from it. -/
def Inbound.existing (P : Prims) (chk : Bool) (i : Inbound) (tag : Nat) (e : Entry) (msg : Bytes) : Out (Bytes × TagSet × TagSet) :=
  match i with
  | .sent sets idx _ _ _ _ _ =>
    match idx.find? (·.1 = tag) with
    | none => .error .unknownTag
    | some (_, k) =>
      match sets[k]? with
      | none => .error .unknownTag
      | some (send, recv) =>
        match Entry.open P e msg with
        | none => .error .crypto
        | some plain => .ok (plain, send, recv)
  | _ => invalid chk

/-- `handle_new_session_reply` (outbound.rs 123-222): payload, send set and receive set. -/
def Outbound.handleReply (P : Prims) (E : Elligator) (chk : Bool) (o : Outbound) (e : Entry) (msg : Bytes) : Out (Bytes × TagSet × TagSet) :=
  if msg.length < 60 then if chk then .panic else .error .malformed
  else match E.decode ((msg.drop 12).take 32) with
    | none => .panic
    | some remoteE =>
      let mac := (msg.drop 44).take 16
      let state := P.sha (P.sha (o.state ++ le 8 e.tag) ++ remoteE)
      let (ck, key) := replyKeys P o.ck (P.dh o.esk remoteE) (P.dh o.sk remoteE)
      match P.unseal key 0 state mac with
      | none => .error .crypto
      | some _ =>
        let state := P.sha (state ++ mac)
        let (sendKey, recvKey) := split P ck
        match P.unseal (payloadKey P recvKey) 0 state (msg.drop 60) with
        | none => .error .crypto
        | some plain => .ok (plain, TagSet.new P ck sendKey, TagSet.new P ck recvKey)

end Emissary.Ecies
