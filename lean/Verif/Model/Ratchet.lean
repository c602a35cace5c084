import Verif.Model.Garlic
import Verif.Model.Ssu2Handshake
/-!
# Tag sets of garlic sessions

Models `destination/session/tag_set.rs`. `P` are the primitives (`P.hmac`, `P.dh`, `P.pub`). The random private keys are arguments.
Zeroing of secrets and logging are not represented, nor are the fields `recv_key_id`, `send_key_id` and `session_tag_key`, which are
never read. `chk` means debug assertions: a failing one is `panic`.
-/
namespace Emissary.Ratchet
open Emissary Emissary.I2np
open Emissary.Ssu2 (Prims)
open Emissary.Ntcp2 (unle le)
open Emissary.Garlic (NextKey)

/-- destination/session/tag_set.rs 167. -/
def lblRatchet : Bytes := "KDFDHRatchetStep".toUTF8.toList
/-- destination/session/tag_set.rs 176. -/
def lblTagKey : Bytes := "TagAndKeyGenKeys".toUTF8.toList
/-- destination/session/tag_set.rs 185. -/
def lblTagInit : Bytes := "STInitialization".toUTF8.toList
/-- destination/session/tag_set.rs 281. -/
def lblTagGen : Bytes := "SessionTagKeyGen".toUTF8.toList
/-- destination/session/tag_set.rs 300. -/
def lblSymmetric : Bytes := "SymmetricRatchet".toUTF8.toList
/-- destination/session/tag_set.rs 341. -/
def lblTagSet : Bytes := "XDHRatchetTagSet".toUTF8.toList

/-- `KeyContext` (tag_set.rs 144-160). -/
structure Chain where
  nextRoot : Bytes
  tagData : Bytes
  tagConst : Bytes
  symKey : Bytes
deriving Repr, DecidableEq

/-- `KeyContext::new` (164-201). -/
def Chain.new (P : Prims) (root tagSetKey : Bytes) : Chain :=
  let temp := P.hmac root tagSetKey
  let nextRoot := P.hmac temp (lblRatchet ++ [1])
  let ratchetKey := P.hmac temp (nextRoot ++ lblRatchet ++ [2])
  let temp := P.hmac ratchetKey []
  let tagKey := P.hmac temp (lblTagKey ++ [1])
  let symKey := P.hmac temp (tagKey ++ lblTagKey ++ [2])
  let temp := P.hmac tagKey []
  let tagData := P.hmac temp (lblTagInit ++ [1])
  let tagConst := P.hmac temp (tagData ++ lblTagInit ++ [2])
  { nextRoot, tagData, tagConst, symKey }

/-- `KeyState` (49-105). -/
inductive KeyState where
  | uninit
  | awaiting (send recv : Nat) (sk : Bytes)
  | confirming (send recv : Nat) (sk pk : Bytes)
  | active (send recv : Nat) (sk pk : Bytes)
  | poisoned
deriving Repr, DecidableEq

/-- `TagSetEntry` (206-218). -/
structure Entry where
  key : Bytes
  tag : Nat
  index : Nat
  setId : Nat
deriving Repr, DecidableEq

/-- `TagSet` (223-247). -/
structure TagSet where
  chain : Chain
  state : KeyState := .uninit
  index : Nat := 0
  id : Nat := 0
deriving Repr, DecidableEq

/-- `TagSet::new` (251-260). -/
def TagSet.new (P : Prims) (root key : Bytes) : TagSet := { chain := Chain.new P root key }

/-- The key material of the next entry and the chain after it (274-311). -/
def Chain.step (P : Prims) (c : Chain) : (Bytes × Nat) × Chain :=
  let temp := P.hmac c.tagData c.tagConst
  let tagData := P.hmac temp (lblTagGen ++ [1])
  let tag := (P.hmac temp (tagData ++ lblTagGen ++ [2])).take 8
  let temp := P.hmac c.symKey []
  let symKey := P.hmac temp (lblSymmetric ++ [1])
  let key := P.hmac temp (symKey ++ lblSymmetric ++ [2])
  ((key, unle tag), { c with tagData, symKey })

/-- `TagSet::next_entry` (265-321). -/
def TagSet.next (P : Prims) (t : TagSet) : Option Entry × TagSet :=
  if t.index + 1 < 2 ^ 16 then
    let ((key, tag), chain) := t.chain.step P
    (some { key, tag, index := t.index, setId := t.id }, { t with index := t.index + 1, chain })
  else (none, t)

/-- `reinitialize_tag_set` (330-368). `1u16 + send + recv` is at most 65535 in every state that can come about (`C56_no_wrap`). -/
def TagSet.reinit (P : Prims) (t : TagSet) (sk pk : Bytes) (send recv : Nat) : TagSet :=
  let tagSetKey := P.hmac (P.hmac (P.dh sk pk) []) (lblTagSet ++ [1])
  { chain := Chain.new P t.chain.nextRoot tagSetKey, id := 1 + send + recv, state := .active send recv sk pk, index := 0 }

/-- `MAX_KEY_ID` (44). -/
def maxKeyId : Nat := 32767

/-- `SESSION_DH_RATCHET_THRESHOLD` (session/mod.rs 75). -/
def ratchetThreshold : Nat := 20000

/-- `SessionError` (error.rs), as far as it is used. error.rs 69. -/
inductive Err where
  | terminated
  | invalidState
  | malformed
  | unknownTag
  | invalidKey
  | crypto
deriving Repr, DecidableEq

/-- What a call comes to. Not in the code: the effects that can be observed. -/
inductive Out (α : Type) where
  | ok (a : α)
  | error (e : Err)
  | panic
deriving Repr, DecidableEq

/-- `debug_assert!(false); Err(SessionError::InvalidState)`. destination/session/tag_set.rs 518, 796. -/
def invalid (chk : Bool) : Out α := if chk then .panic else .error .invalidState

/-- `try_generate_next_key` (376-521); `sk` is the random private key. -/
def TagSet.tryGenerate (P : Prims) (chk : Bool) (sk : Bytes) (t : TagSet) : Out (Option NextKey) × TagSet :=
  if t.index ≤ ratchetThreshold then (.ok none, t)
  else match t.state with
    | .uninit => (.ok (some (.forward 0 (some (P.pub sk)) true)), { t with state := .awaiting 0 0 sk })
    | .active send recv oldSk oldPk =>
      if t.id % 2 ≠ 0 then
        if send + 1 > maxKeyId then (.error .terminated, { t with state := .poisoned })
        else (.ok (some (.forward (send + 1) (some (P.pub sk)) false)), { t with state := .confirming (send + 1) recv sk oldPk })
      else
        if recv + 1 > maxKeyId then (.error .terminated, { t with state := .poisoned })
        else (.ok (some (.forward (recv + 1) none true)), { t with state := .awaiting send (recv + 1) oldSk })
    | .confirming send _ sk _ => (.ok (some (.forward send (some (P.pub sk)) false)), t)
    | .awaiting send recv sk =>
      (.ok (some (if send = 0 ∧ recv = 0 then .forward 0 (some (P.pub sk)) true else .forward recv none true)), t)
    | .poisoned => (invalid chk, t)

/-- `can_ratchet` (527-568). -/
def TagSet.canRatchet (t : TagSet) : NextKey → Bool
  | .forward 0 (some _) true => match t.state with
    | .uninit => true
    | _ => false
  | .forward id (some _) false => match t.state with
    | .active send _ _ _ => decide (send < id) && decide (id ≤ maxKeyId)
    | _ => false
  | .forward id none true => match t.state with
    | .active _ recv _ _ => decide (recv < id) && decide (id ≤ maxKeyId)
    | _ => false
  | .reverse _ (some _) => match t.state with
    | .awaiting .. => true
    | _ => false
  | .reverse _ none => match t.state with
    | .confirming .. => true
    | _ => false
  | _ => false

/-- `handle_next_key` (571-799); `sk` is the random private key. -/
def TagSet.handle (P : Prims) (chk : Bool) (sk : Bytes) (t : TagSet) (kind : NextKey) : Out (Option NextKey) × TagSet :=
  match t.state, kind with
  | .uninit, .forward 0 (some pk) true => (.ok (some (.reverse 0 (some (P.pub sk)))), t.reinit P sk pk 0 0)
  | .awaiting send recv own, .reverse _ (some pk) => (.ok none, t.reinit P own pk send recv)
  | .confirming send recv own pk, .reverse _ none => (.ok none, t.reinit P own pk send recv)
  | .active send recv own pk, .forward id key rev =>
    match key, rev, decide (send < id), decide (recv < id) with
    | some new, false, true, _ =>
      if id > maxKeyId then (if chk then .panic else .error .terminated, { t with state := .poisoned })
      else (.ok (some (.reverse recv none)), t.reinit P own new id recv)
    | none, true, _, true =>
      if id > maxKeyId then (if chk then .panic else .error .terminated, { t with state := .poisoned })
      else (.ok (some (.reverse id (some (P.pub sk)))), t.reinit P sk pk send id)
    | _, true, _, _ => (.ok (some (.reverse id (some (P.pub own)))), t)
    | _, false, _, _ => (.ok (some (.reverse recv none)), t)
  | .active .., .reverse .. => (.ok none, t)
  | _, _ => (invalid chk, { t with state := .poisoned })

end Emissary.Ratchet
