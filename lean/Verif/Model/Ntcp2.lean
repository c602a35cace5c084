import Verif.Model.I2np
/-!
# NTCP2: handshake options, message blocks, length obfuscation, cipher nonces, session reader and writer

Models `emissary-core/src/transport/ntcp2/{options,message}.rs`, `transport/ntcp2/session/active.rs`,
`crypto/siphash.rs` and `crypto/chachapoly.rs`.

Simplifications: SipHash-2-4, HMAC-SHA-256 and ChaCha20-Poly1305 are parameters; whether a message is expired is
an oracle; the bandwidth counter, events and logging are omitted.
-/
namespace Emissary.Ntcp2
open Emissary Emissary.I2np

/-! ## Options -/

/-- `InitiatorOptions` (options.rs 33-50). -/
structure InitiatorOptions where
  networkId : Nat
  version : Nat
  paddingLength : Nat
  m3p2Len : Nat
  timestamp : Nat
deriving Repr, DecidableEq

/-- `InitiatorOptions::serialize` (options.rs 83-95). -/
def InitiatorOptions.serialize (o : InitiatorOptions) : Bytes :=
  be 1 o.networkId ++ be 1 o.version ++ be 2 o.paddingLength ++ be 2 o.m3p2Len ++ be 2 0 ++ be 4 o.timestamp ++ be 4 0

/-- `InitiatorOptions::parse_frame` (options.rs 56-75). -/
def InitiatorOptions.parse : Parser InitiatorOptions := fun i => do
  let (nid, r) ← beU 1 i
  let (v, r) ← beU 1 r
  let (p, r) ← beU 2 r
  let (m, r) ← beU 2 r
  let (_, r) ← beU 2 r
  let (t, r) ← beU 4 r
  let (_, r) ← beU 4 r
  return (⟨nid, v, p, m, t⟩, r)

/-- `ResponderOptions` (options.rs 98-106). -/
structure ResponderOptions where
  paddingLength : Nat
  timestamp : Nat
deriving Repr, DecidableEq

/-- `ResponderOptions::serialize` (options.rs 134-144). -/
def ResponderOptions.serialize (o : ResponderOptions) : Bytes :=
  be 2 0 ++ be 2 o.paddingLength ++ be 4 0 ++ be 4 o.timestamp ++ be 4 0

/-- `ResponderOptions::parse_frame` (options.rs 112-126). -/
def ResponderOptions.parse : Parser ResponderOptions := fun i => do
  let (_, r) ← beU 2 i
  let (p, r) ← beU 2 r
  let (_, r) ← beU 4 r
  let (t, r) ← beU 4 r
  let (_, r) ← beU 4 r
  return (⟨p, t⟩, r)

/-! ## Message blocks -/

/-- `MessageBlock` (message.rs 108-171). -/
inductive Block where
  | dateTime (timestamp : Nat)
  | options (tMin tMax rMin rMax tDmy rDmy tDelay rDelay : Nat)
  | routerInfo (floodfill : Bool) (info : Bytes)
  | i2np (message : Message)
  | termination (validFrames reason : Nat)
  | padding (bytes : Bytes)
deriving Repr, DecidableEq

/-- `parse_date_time` (message.rs 226-231): the size field is ignored. -/
def parseDateTime : Parser Block := fun i => do
  let (_, r) ← beU 2 i
  let (t, r) ← beU 4 r
  return (.dateTime t, r)

/-- `take(size - min)` if `size > min` (message.rs 245-250, 303-308). -/
def skipExtra (size min : Nat) : Parser Unit := fun i =>
  if size > min then (takeN (size - min) i).map (fun p => ((), p.2)) else some ((), i)

/-- `parse_options` (message.rs 234-265). -/
def parseOptions : Parser Block := fun i => do
  let (size, r) ← beU 2 i
  let (a, r) ← beU 1 r
  let (b, r) ← beU 1 r
  let (c, r) ← beU 1 r
  let (d, r) ← beU 1 r
  let (e, r) ← beU 2 r
  let (f, r) ← beU 2 r
  let (g, r) ← beU 2 r
  let (h, r) ← beU 2 r
  let (_, r) ← skipExtra size 12 r
  return (.options a b c d e f g h, r)

/-- `parse_router_info` (message.rs 268-287). -/
def parseRouterInfo : Parser Block := fun i => do
  let (size, r) ← beU 2 i
  if size = 0 then none
  else do
    let (flag, r) ← beU 1 r
    let (info, r) ← takeN (size - 1) r
    return (.routerInfo (flag % 2 = 1) info, r)

/-- `parse_i2np` (message.rs 290-295). -/
def parseI2np : Parser Block := fun i => do
  let (m, r) ← Message.parseShort i
  return (.i2np m, r)

/-- `parse_termination` (message.rs 298-317). -/
def parseTermination : Parser Block := fun i => do
  let (size, r) ← beU 2 i
  let (v, r) ← beU 8 r
  let (c, r) ← beU 1 r
  let (_, r) ← skipExtra size 9 r
  return (.termination v c, r)

/-- `parse_padding` (message.rs 320-325). -/
def parsePadding : Parser Block := fun i => do
  let (size, r) ← beU 2 i
  let (p, r) ← takeN size r
  return (.padding p, r)

/-- `parse_inner` (message.rs 327-339) with the block codes of `BlockType::from_u8` (80-90). -/
def parseBlock : Parser Block := fun i => do
  let (ty, r) ← beU 1 i
  if ty = 0 then parseDateTime r
  else if ty = 1 then parseOptions r
  else if ty = 2 then parseRouterInfo r
  else if ty = 3 then parseI2np r
  else if ty = 4 then parseTermination r
  else if ty = 254 then parsePadding r
  else none

/-- `parse_multiple_inner` (message.rs 341-352); every block consumes at least one byte, so the length of the input
bounds the recursion. -/
def parseInner : Nat → Bytes → Option (List Block)
  | 0, _ => none
  | fuel + 1, i => do
    let (b, r) ← parseBlock i
    if r.isEmpty then some [b]
    else do
      let bs ← parseInner fuel r
      return b :: bs

/-- `MessageBlock::parse_multiple` (message.rs 355-357). -/
def parseBlocks (i : Bytes) : Option (List Block) := parseInner (i.length + 1) i

/-- `new_router_info` (message.rs 367-377); `router_info.len() as u16 + 1u16`. -/
def newRouterInfo (info : Bytes) : Bytes := be 1 2 ++ be 2 (info.length % 65536 + 1) ++ be 1 0 ++ info

/-- `new_i2np_message` (message.rs 380-387). -/
def newI2np (message : Bytes) : Bytes := be 1 3 ++ message

/-! ## Length obfuscation -/

/-- `KeyContext` (siphash.rs 27-36). -/
structure SipKey where
  k1 : Nat
  k2 : Nat
  iv : Bytes
deriving Repr, DecidableEq

/-- `SipHash` (siphash.rs 39-45). -/
structure Sip where
  sender : SipKey
  receiver : SipKey
deriving Repr, DecidableEq

/-- Little-endian image, `u64::to_le_bytes` for `k = 8`. -/
def le (k n : Nat) : Bytes := (be k n).reverse

/-- `u64::from_le_bytes`. -/
def unle (b : Bytes) : Nat := unbe b.reverse

/-- Primitives: SipHash-2-4 with two keys, HMAC-SHA-256. -/
structure Hashes where
  sip : Nat → Nat → Bytes → Nat
  hmac : Bytes → Bytes → Bytes

/-- The key and IV from 32 bytes (siphash.rs 73-95). -/
def sipKeyOf (b : Bytes) : SipKey := ⟨unle (b.take 8), unle ((b.drop 8).take 8), (b.drop 16).take 8⟩

/-- ASCII of `"ask"` and `"siphash"`. crypto/siphash.rs 52. -/
def askLabel : Bytes := [97, 115, 107]
/-- crypto/siphash.rs 54. -/
def siphashLabel : Bytes := [115, 105, 112, 104, 97, 115, 104]

/-- `SipHash::derive_keys` (siphash.rs 49-109): initiator's and responder's contexts. -/
def deriveSip (H : Hashes) (key h : Bytes) : SipKey × SipKey :=
  let ask := H.hmac key (askLabel ++ [1])
  let temp := H.hmac ask (h ++ siphashLabel)
  let master := H.hmac temp [1]
  let temp := H.hmac master []
  let ab := H.hmac temp [1]
  let ba := H.hmac temp (ab ++ [2])
  (sipKeyOf ab, sipKeyOf ba)

/-- `new_initiator` (siphash.rs 112-119). -/
def Sip.initiator (H : Hashes) (key h : Bytes) : Sip :=
  let (i, r) := deriveSip H key h
  ⟨i, r⟩

/-- `new_responder` (siphash.rs 122-129). -/
def Sip.responder (H : Hashes) (key h : Bytes) : Sip :=
  let (i, r) := deriveSip H key h
  ⟨r, i⟩

/-- Mask and next context. crypto/siphash.rs 122-129. -/
def SipKey.next (H : Hashes) (k : SipKey) : Nat × SipKey :=
  let hash := H.sip k.k1 k.k2 k.iv
  (hash % 65536, { k with iv := le 8 hash })

/-- `obfuscate` (siphash.rs 141-147). -/
def Sip.obfuscate (H : Hashes) (s : Sip) (size : Nat) : Nat × Sip :=
  let (m, k) := s.sender.next H
  (size ^^^ m, { s with sender := k })

/-- `deobfuscate` (siphash.rs 132-138). -/
def Sip.deobfuscate (H : Hashes) (s : Sip) (size : Nat) : Nat × Sip :=
  let (m, k) := s.receiver.next H
  (size ^^^ m, { s with receiver := k })

/-! ## Cipher states -/

/-- `Nonce::next` (chachapoly.rs 55-66): the value used and the next state; `none` on overflow, with the state
unchanged (the `?` returns before the assignment). -/
def nonceNext (n : Nat) : Option Nat × Nat := if n + 1 < 2 ^ 64 then (some n, n + 1) else (none, n)

/-- The 12-byte nonce (chachapoly.rs 62-65). -/
def nonceBytes (n : Nat) : Bytes := List.replicate 4 0 ++ le 8 n

/-- AEAD with key, 12-byte nonce and associated data. -/
structure Aead where
  enc : Bytes → Bytes → Bytes → Bytes → Bytes
  dec : Bytes → Bytes → Bytes → Bytes → Option Bytes

/-- `ChaChaPoly` (chachapoly.rs 70-76). -/
structure Cipher where
  key : Bytes
  nonce : Nat := 0
deriving Repr, DecidableEq

/-- `encrypt`, `encrypt_with_ad`, `encrypt_with_ad_new` (chachapoly.rs 108-112, 127-154): result, nonce used, new state.
`encrypt` has empty associated data. -/
def Cipher.encrypt (A : Aead) (c : Cipher) (ad plain : Bytes) : Option Bytes × Cipher :=
  match nonceNext c.nonce with
  | (some n, next) => (some (A.enc c.key (nonceBytes n) ad plain), { c with nonce := next })
  | (none, next) => (none, { c with nonce := next })

/-- `decrypt`, `decrypt_with_ad` (chachapoly.rs 115-122, 161-173). A failed decryption uses up its nonce. -/
def Cipher.decrypt (A : Aead) (c : Cipher) (ad ct : Bytes) : Option Bytes × Cipher :=
  match nonceNext c.nonce with
  | (some n, next) => (A.dec c.key (nonceBytes n) ad ct, { c with nonce := next })
  | (none, next) => (none, { c with nonce := next })

/-! ## Session reader (active.rs 234-373) -/

/-- Why a session ended. Not in the code: the effects that can be observed. -/
inductive Reason where
  | io | aead | remote (code : Nat)
deriving Repr, DecidableEq

/-- `ReadState` (active.rs 53-68). -/
inductive ReadState where
  | size (offset : Nat)
  | frame (size offset : Nat)
deriving Repr, DecidableEq

/-- Reading half of `Ntcp2Session` (active.rs 101-149): `buf` is the used part of the read buffer, `out` the batches
handed to `dispatch_messages`. -/
structure Reader where
  state : ReadState := .size 0
  buf : Bytes := []
  cipher : Cipher
  sip : Sip
  out : List (List Message) := []
  ended : Option Reason := none

/-- Primitives and the clock. Not in the code: what the model takes as given, for every value of it. -/
structure Env where
  H : Hashes
  A : Aead
  expired : Message → Bool

/-- Room in the slice handed to `poll_read`. transport/ntcp2/session/active.rs 101-149. -/
def Reader.space (s : Reader) : Nat :=
  match s.state with
  | .size off => 2 - off
  | .frame size off => size - off

/-- `buf[off .. off + data.len()] = data`; the buffer is only tracked as far as it was written.
Standard or external library, not in /repo. -/
def place (buf : Bytes) (off : Nat) (data : Bytes) : Bytes := buf.take off ++ data

/-- The I2NP messages handed on (active.rs 327-355). -/
def messagesOf (E : Env) (bs : List Block) : List Message :=
  bs.filterMap (fun b => match b with
    | .i2np m => if E.expired m then none else some m
    | _ => none)

/-- First termination block (active.rs 313-325). -/
def terminationOf (bs : List Block) : Option Nat :=
  bs.findSome? (fun b => match b with
    | .termination _ r => some r
    | _ => none)

/-- A complete frame `ct` has been read (active.rs 289-368). -/
def Reader.frame (E : Env) (s : Reader) (ct : Bytes) : Reader :=
  let (plain, cipher) := s.cipher.decrypt E.A [] ct
  let s := { s with cipher := cipher }
  match plain with
  | none => { s with ended := some .aead }
  | some data =>
    match parseBlocks data with
    | none => s                                  -- `continue` at 302: the read state is left as it is
    | some bs =>
      match terminationOf bs with
      | some r => { s with ended := some (.remote r) }
      | none => { s with out := s.out ++ [messagesOf E bs], state := .size 0 }

/-- `poll_read` returned these bytes (`data.length ≤ space`); an empty read is an I/O error (active.rs 249, 275). -/
def Reader.read (E : Env) (s : Reader) (data : Bytes) : Reader :=
  if s.ended.isSome then s
  else if data.isEmpty then { s with ended := some .io }
  else
    match s.state with
    | .size off =>
      let s := { s with buf := place s.buf off data }
      if off + data.length ≠ 2 then { s with state := .size (off + data.length) }
      else
        let (size, sip) := s.sip.deobfuscate E.H (unbe (s.buf.take 2))
        { s with state := .frame size 0, sip := sip }
    | .frame size off =>
      let s := { s with buf := place s.buf off data }
      if off + data.length < size then { s with state := .frame size (off + data.length) }
      else s.frame E (s.buf.take size)

/-- Read from a byte stream in pieces of at most the given sizes (each at least one byte, at most the room offered);
returns the bytes not read. A read into an empty slice returns `Ok(0)`. -/
def Reader.run (E : Env) (s : Reader) (stream : Bytes) : List Nat → Reader × Bytes
  | [] => (s, stream)
  | n :: ns =>
    if s.ended.isSome ∨ stream.isEmpty then (s, stream)
    else
      let k := min (max 1 n) s.space
      (s.read E (stream.take k)).run E (stream.drop k) ns

/-! ## Session writer (active.rs 375-470) -/

/-- `WriteState` (active.rs 71-98). -/
inductive WriteState where
  | getMessage
  | sendSize (offset : Nat) (size message : Bytes)
  | sendMessage (offset : Nat) (message : Bytes)
deriving Repr, DecidableEq

/-- Writing half of the session; `out` is what the socket accepted. transport/ntcp2/session/active.rs 71-149. -/
structure Writer where
  state : WriteState := .getMessage
  cipher : Cipher
  sip : Sip
  out : Bytes := []
  ended : Bool := false

/-- Inputs: a message is in the channel; the socket accepts up to `n` bytes. Not in the code: the events that the theorems quantify over. -/
inductive WOp where
  | cmd (message : Bytes)
  | write (n : Nat)

/-- One iteration of the write loop. A command is only taken in state `GetMessage`, otherwise it waits in the
channel (the operation leaves the state unchanged and is to be repeated). `encrypt(…).unwrap()` panics on nonce
exhaustion, which ends the session. `poll_write` with `Ok(0)` ends it too. -/
def Writer.step (E : Env) (w : Writer) : WOp → Writer
  | .cmd m =>
    if w.ended then w else
    match w.state with
    | .getMessage =>
      match w.cipher.encrypt E.A [] (newI2np m) with
      | (none, c) => { w with cipher := c, ended := true }
      | (some ct, c) =>
        let (size, sip) := w.sip.obfuscate E.H (ct.length % 65536)
        { w with state := .sendSize 0 (be 2 size) ct, cipher := c, sip := sip }
    | _ => w
  | .write n =>
    if w.ended then w else
    match w.state with
    | .getMessage => w
    | .sendSize off size m =>
      let k := min n (size.length - off)
      if k = 0 then { w with ended := true }
      else { w with
        out := w.out ++ (size.drop off).take k
        state := if k + off = size.length then .sendMessage 0 m else .sendSize (off + k) size m }
    | .sendMessage off m =>
      let k := min n (m.length - off)
      if k = 0 then { w with ended := true }
      else { w with
        out := w.out ++ (m.drop off).take k
        state := if k + off = m.length then .getMessage else .sendMessage (off + k) m }

end Emissary.Ntcp2
