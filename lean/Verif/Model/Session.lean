import Verif.Model.Ecies
/-!
# Garlic sessions of a destination

Models `destination/session/{session,mod}.rs`: pending and active sessions and the session manager.

* Hash maps are association lists; the order in which a hash set of acks is sent is the order of insertion.
* Time, message ids and private keys are arguments (`Draw`).
* A `DatabaseStore` with a lease set is read by the parameter `readStore`, which gives its key and the id of the destination in the lease
  set; it is written by `storeBuild`.
* The tag map keeps, besides its contents, a list of all tags ever inserted. The program has no such list; it is used in statements only.
* Wakers and logging are not represented.
-/
namespace Emissary.Ecies
open Emissary Emissary.I2np Emissary.Garlic
open Emissary.Ssu2 (Prims)
open Emissary.Ntcp2 (unle le)
open Emissary.Ratchet

/-- What a session is built from. Not in the code: what the model takes as given, for every value of it. -/
structure Cfg where
  P : Prims
  E : Elligator
  T : Tags
  chk : Bool
  readStore : Bytes → Option (Bytes × Bytes)

/-- Time and randomness of a call: `R::now`, `R::time_since_epoch`, message ids, the ephemeral key of a session, the keys of ratchets.
Not in the code: what the model takes as given, for every value of it. -/
structure Draw where
  now : Duration
  epoch : Duration
  ids : Nat → Nat
  esk : Bytes
  keys : Nat → Bytes

/-! ## Maps -/

/-- A hash map. Standard or external library, not in /repo. -/
abbrev Assoc (β : Type) := List (Bytes × β)

/-- Standard or external library, not in /repo. -/
def Assoc.get {β : Type} (m : Assoc β) (k : Bytes) : Option β := (m.find? (·.1 = k)).map (·.2)

/-- Standard or external library, not in /repo. -/
def Assoc.del {β : Type} (m : Assoc β) (k : Bytes) : Assoc β := m.filter (·.1 ≠ k)

/-- Standard or external library, not in /repo. -/
def Assoc.put {β : Type} (m : Assoc β) (k : Bytes) (v : β) : Assoc β := m.del k ++ [(k, v)]

/-- `garlic_tags` (mod.rs 172): the destinations of tags; `log` are all tags ever inserted. -/
structure TagMap where
  map : Nat → Option Bytes
  log : List Nat

/-- Standard or external library, not in /repo. -/
def TagMap.new : TagMap := { map := fun _ => none, log := [] }

/-- Standard or external library, not in /repo. -/
def TagMap.insert (m : TagMap) (d : Bytes) (t : Nat) : TagMap := { map := fun x => if x = t then some d else m.map x, log := m.log ++ [t] }

/-- Standard or external library, not in /repo. -/
def TagMap.inserts (m : TagMap) (d : Bytes) (ts : List Nat) : TagMap := ts.foldl (fun m t => m.insert d t) m

/-- Standard or external library, not in /repo. -/
def TagMap.remove (m : TagMap) (t : Nat) : TagMap := { m with map := fun x => if x = t then none else m.map x }

/-- Standard or external library, not in /repo. -/
def TagMap.removes (m : TagMap) (ts : List Nat) : TagMap := ts.foldl TagMap.remove m

/-- Entries by tag (`tag_set_entries`). Standard or external library, not in /repo. -/
def entryGet (es : List Entry) (tag : Nat) : Option Entry := es.find? (·.tag = tag)

/-- Standard or external library, not in /repo. -/
def entryDel (es : List Entry) (tag : Nat) : List Entry := es.filter (·.tag ≠ tag)

/-- Standard or external library, not in /repo. -/
def entryPut (es : List Entry) (e : Entry) : List Entry := entryDel es e.tag ++ [e]

/-- Standard or external library, not in /repo. -/
def entryPuts (es new : List Entry) : List Entry := new.foldl entryPut es

/-- Entries for replies by tag, with the index of the request (`nsr_tag_set_entries`). Standard or external library, not in /repo. -/
abbrev NsrEntries := List (Nat × Entry)

/-- Standard or external library, not in /repo. -/
def nsrGet (es : NsrEntries) (tag : Nat) : Option (Nat × Entry) := es.find? (·.2.tag = tag)

/-- Standard or external library, not in /repo. -/
def nsrDel (es : NsrEntries) (tag : Nat) : NsrEntries := es.filter (·.2.tag ≠ tag)

/-- Standard or external library, not in /repo. -/
def nsrPuts (es : NsrEntries) (i : Nat) (new : List Entry) : NsrEntries := new.foldl (fun es e => nsrDel es e.tag ++ [(i, e)]) es

/-! ## Messages -/

/-- `I2NP_MESSAGE_EXPIRATION` (i2np/mod.rs 62). -/
def cloveLife : Duration := 8000000000

/-- Length and data. i2np/mod.rs 62. -/
def prefixed (m : Bytes) : Bytes := be 4 m.length ++ m

/-- The clove with a message for a destination (context.rs 161-174, session.rs 289-303, 405-419, mod.rs 355-369). -/
def dataClove (v : Draw) (i : Nat) (remote msg : Bytes) : Block := .clove .data (v.ids i) (v.epoch + cloveLife) (.destination remote) (prefixed msg)

/-- The clove with the own lease set (context.rs 143-160, mod.rs 303-318, 396-411). -/
def storeClove (v : Draw) (i : Nat) (own leaseSet : Bytes) : Block :=
  .clove .databaseStore (v.ids i) (v.epoch + cloveLife) .localNode (storeBuild own (.leaseSet2 leaseSet) .none)

/-- `create_outbound_session` with its clove set (context.rs 126-290); `none` is a panic. -/
def openSession (C : Cfg) (v : Draw) (c : KeyCtx) (own remote remotePk leaseSet msg : Bytes) : Option (Outbound × Bytes) := do
  let plain ← build [.dateTime (asSecs v.epoch), storeClove v 0 own leaseSet, dataClove v 1 remote msg]
  return c.newSession C.P C.E remotePk v.esk plain

/-! ## Sessions -/

/-- `Session` (session.rs 773-807). `nsr` is `NsrContext` (660-676): when it was created, entries, requests. -/
structure Sess where
  expiring : List (Duration × List Nat) := []
  nsr : Option (Duration × NsrEntries × List Outbound)
  pendingKey : Option NextKey := none
  recv : TagSet
  send : TagSet
  entries : List Entry
deriving Repr, DecidableEq

/-- `PendingSessionState` (106-167). -/
inductive PState where
  | inbound (i : Inbound) (entries : List Entry)
  | awaitNsr (outs : List Outbound) (pk : Bytes) (nsr : NsrEntries) (entries : List Entry)
  | awaitEs (outs : List Outbound) (send recv : TagSet) (pk : Bytes) (nsr : NsrEntries) (entries : List Entry)
  | poisoned
deriving Repr, DecidableEq

/-- `PendingSession` (186-201); its key context and the local id are arguments of its functions. -/
structure Pending where
  created : Duration
  state : PState
deriving Repr, DecidableEq

/-- `PendingSessionEvent` (70-103). -/
inductive PEvent where
  | send (msg : Bytes)
  | ret (msg : Bytes) (setId index : Nat)
  | create (msg : Bytes) (s : Sess) (setId index : Nat)
deriving Repr, DecidableEq

/-- `PendingSession::new_inbound` (205-223). -/
def Pending.inbound (v : Draw) (i : Inbound) : Pending := { created := v.now, state := .inbound i [] }

/-- `PendingSession::new_outbound` (226-260); `none` is a panic. -/
def Pending.outbound (C : Cfg) (v : Draw) (remote pk : Bytes) (o : Outbound) (tags : TagMap) : Option (Pending × TagMap) := do
  let es ← o.replyTags C.P C.T
  return ({ created := v.now, state := .awaitNsr [o] pk (nsrPuts [] 0 es) [] }, tags.inserts remote (es.map (·.tag)))

/-- `PENDING_SESSION_MAX_AGE` (session.rs 57). -/
def pendingMaxAge : Duration := 5 * 60 * 1000000000

/-- `is_expired` (263-265). -/
def Pending.expired (now : Duration) (p : Pending) : Bool := decide (p.created + pendingMaxAge < now)

/-- `advance_outbound` (270-457). -/
def PState.advanceOut (C : Cfg) (v : Draw) (c : KeyCtx) (own remote leaseSet msg : Bytes) (tags : TagMap) : PState → Out PEvent × PState × TagMap
  | .inbound i entries =>
    match build [dataClove v 0 remote msg] with
    | none => (.panic, .poisoned, tags)
    | some plain =>
      match i.reply C.P C.E C.T C.chk v.esk plain with
      | (.ok (m, new), i) => (.ok (.send m), .inbound i (entryPuts entries new), tags.inserts remote (new.map (·.tag)))
      | (.error e, _) => (.error e, .poisoned, tags)
      | (.panic, _) => (.panic, .poisoned, tags)
  | .awaitNsr outs pk nsr entries =>
    match openSession C v c own remote pk leaseSet msg with
    | none => (.panic, .poisoned, tags)
    | some (o, m) =>
      match o.replyTags C.P C.T with
      | none => (.panic, .poisoned, tags)
      | some new => (.ok (.send m), .awaitNsr (outs ++ [o]) pk (nsrPuts nsr outs.length new) entries, tags.inserts remote (new.map (·.tag)))
  | .awaitEs outs send recv _ nsr entries =>
    match send.next C.P with
    | (none, _) => (invalid C.chk, .poisoned, tags)
    | (some e, send) =>
      match build [dataClove v 0 remote msg] with
      | none => (.panic, .poisoned, tags)
      | some plain =>
        (.ok (.create (Entry.seal C.P e plain) { nsr := some (v.now, nsr, outs), recv, send, entries } e.setId e.index), .poisoned, tags)
  | .poisoned => (invalid C.chk, .poisoned, tags)

/-- `advance_inbound` (463-646). `outs[i]?` is never `none` (`expect`, 546, 616). -/
def PState.advanceIn (C : Cfg) (remote : Bytes) (tag : Nat) (msg : Bytes) (tags : TagMap) : PState → Out PEvent × PState × TagMap
  | .inbound i entries =>
    match entryGet entries tag with
    | none => (invalid C.chk, .poisoned, tags)
    | some e =>
      match i.existing C.P C.chk tag e msg with
      | .ok (m, send, recv) => (.ok (.create m { nsr := none, recv, send, entries := entryDel entries tag } e.setId e.index), .poisoned, tags)
      | .error x => (.error x, .poisoned, tags)
      | .panic => (.panic, .poisoned, tags)
  | .awaitNsr outs pk nsr entries =>
    match nsrGet nsr tag with
    | none => (invalid C.chk, .poisoned, tags)
    | some (i, e) =>
      match outs[i]? with
      | none => (.panic, .poisoned, tags)
      | some o =>
        match o.handleReply C.P C.E C.chk e msg with
        | .ok (m, send, recv) =>
          match TagSet.nexts C.P C.T.recv recv with
          | none => (.panic, .poisoned, tags)
          | some (new, recv) =>
            (.ok (.ret m e.setId e.index), .awaitEs outs send recv pk (nsrDel nsr tag) (entryPuts entries new), tags.inserts remote (new.map (·.tag)))
        | .error x => (.error x, .poisoned, tags)
        | .panic => (.panic, .poisoned, tags)
  | .awaitEs outs send recv pk nsr entries =>
    match nsrGet nsr tag with
    | none => (invalid C.chk, .poisoned, tags)
    | some (i, e) =>
      match outs[i]? with
      | none => (.panic, .poisoned, tags)
      | some o =>
        match o.handleReply C.P C.E C.chk e msg with
        | .ok (m, _, _) => (.ok (.ret m e.setId e.index), .awaitEs outs send recv pk (nsrDel nsr tag) entries, tags)
        | .error x => (.error x, .poisoned, tags)
        | .panic => (.panic, .poisoned, tags)
  | .poisoned => (invalid C.chk, .poisoned, tags)

/-- `NsrContext::decrypt` (694-724) with the error mapping of its caller (866-878). -/
def Sess.decryptNsr (C : Cfg) (tag : Nat) (msg : Bytes) (s : Sess) : Out (Nat × Nat × Bytes) × Sess :=
  match s.nsr with
  | none => (invalid C.chk, s)
  | some (created, nsr, outs) =>
    match nsrGet nsr tag with
    | none => (invalid C.chk, s)
    | some (i, e) =>
      let s := { s with nsr := some (created, nsrDel nsr tag, outs) }
      match outs[i]? with
      | none => (invalid C.chk, s)
      | some o =>
        match o.handleReply C.P C.E C.chk e msg with
        | .ok (m, _, _) => (.ok (e.setId, e.index, m), s)
        | .error _ => (invalid C.chk, s)
        | .panic => (.panic, s)

/-- `n` calls of `next_entry`, of which the failing ones are skipped (953-958). -/
def TagSet.upTo (P : Prims) : Nat → TagSet → List Entry × TagSet
  | 0, t => ([], t)
  | n + 1, t => match t.next P with
    | (none, t) => TagSet.upTo P n t
    | (some e, t) => let (es, t) := TagSet.upTo P n t; (e :: es, t)

/-- One `NextKey` block (917-1020). -/
def Sess.handleKey (C : Cfg) (v : Draw) (remote : Bytes) (sk : Bytes) (kind : NextKey) (s : Sess) (tags : TagMap) : Out Unit × Sess × TagMap :=
  match kind with
  | .forward .. =>
    if s.recv.canRatchet kind then
      let (extra, recv) := TagSet.upTo C.P C.T.extra s.recv
      let entries := entryPuts s.entries extra
      let tags := tags.inserts remote (extra.map Entry.tag)
      let s := { s with expiring := s.expiring ++ [(v.now, entries.map Entry.tag)], entries }
      match recv.handle C.P C.chk sk kind with
      | (.error x, recv) => (.error x, { s with recv }, tags)
      | (.panic, recv) => (.panic, { s with recv }, tags)
      | (.ok k, recv) =>
        match TagSet.nexts C.P C.T.recv recv with
        | none => (.panic, { s with recv }, tags)
        | some (new, recv) =>
          (.ok (), { s with recv, entries := entryPuts s.entries new, pendingKey := k }, tags.inserts remote (new.map (·.tag)))
    else match s.recv.handle C.P C.chk sk kind with
      | (.error x, recv) => (.error x, { s with recv }, tags)
      | (.panic, recv) => (.panic, { s with recv }, tags)
      | (.ok k, recv) => (.ok (), { s with recv, pendingKey := k }, tags)
  | .reverse .. =>
    match s.send.handle C.P C.chk sk kind with
    | (.error x, send) => (.error x, { s with send }, tags)
    | (.panic, send) => (.panic, { s with send }, tags)
    | (.ok k, send) => (.ok (), { s with send, pendingKey := k }, tags)

/-- The `NextKey` blocks of a message (917-1022); the other blocks are skipped. -/
def Sess.handleKeys (C : Cfg) (v : Draw) (remote : Bytes) : Nat → List Block → Sess → TagMap → Out Unit × Sess × TagMap
  | _, [], s, tags => (.ok (), s, tags)
  | i, .nextKey kind :: bs, s, tags =>
    match s.handleKey C v remote (v.keys i) kind tags with
    | (.ok (), s, tags) => Sess.handleKeys C v remote (i + 1) bs s tags
    | (.error x, s, tags) => (.error x, s, tags)
    | (.panic, s, tags) => (.panic, s, tags)
  | i, _ :: bs, s, tags => Sess.handleKeys C v remote i bs s tags

/-- One more tag (882-895). -/
def Sess.refill (C : Cfg) (remote : Bytes) (s : Sess) (tags : TagMap) : Sess × TagMap :=
  match s.recv.next C.P with
  | (none, recv) => ({ s with recv }, tags)
  | (some n, recv) => ({ s with recv, entries := entryPut s.entries n }, tags.insert remote n.tag)

/-- `Session::decrypt` (839-1025): tag set id, index and payload. -/
def Sess.decrypt (C : Cfg) (v : Draw) (remote : Bytes) (tag : Nat) (msg : Bytes) (s : Sess) (tags : TagMap) :
    Out (Nat × Nat × Bytes) × Sess × TagMap :=
  match entryGet s.entries tag with
  | none => let (r, s) := s.decryptNsr C tag msg; (r, s, tags)
  | some e =>
    let (s, tags) := { s with entries := entryDel s.entries tag }.refill C remote tags
    match Entry.open C.P e msg with
    | none => (.error .crypto, s, tags)
    | some plain =>
      match parse plain with
      | none => (.error .malformed, s, tags)
      | some blocks =>
        match s.handleKeys C v remote 0 blocks tags with
        | (.ok (), s, tags) => (.ok (e.setId, e.index, plain), s, tags)
        | (.error x, s, tags) => (.error x, s, tags)
        | (.panic, s, tags) => (.panic, s, tags)

/-- `Session::encrypt` (1028-1102): tag set id, index and message. -/
def Sess.encrypt (C : Cfg) (v : Draw) (blocks : List Block) (s : Sess) : Out (Nat × Nat × Bytes) × Sess :=
  match s.send.next C.P with
  | (none, _) => (invalid C.chk, s)
  | (some e, send) =>
    match send.tryGenerate C.P C.chk (v.keys 0) with
    | (.error x, send) => (.error x, { s with send })
    | (.panic, send) => (.panic, { s with send })
    | (.ok k, send) =>
      let all := blocks ++ (k.toList.map .nextKey) ++ (s.pendingKey.toList.map .nextKey)
      let s := { s with send, pendingKey := none }
      match build all with
      | none => (.panic, s)
      | some plain => (.ok (e.setId, e.index, Entry.seal C.P e plain), s)

/-- `NSR_CONTEXT_MAX_AGE`, `PREV_TAG_MAX_AGE` (61, 64). -/
def nsrMaxAge : Duration := 3 * 60 * 1000000000
/-- destination/session/mod.rs 61, 64. -/
def prevTagMaxAge : Duration := 3 * 60 * 1000000000

/-- The loop of `Session::maintain` (1114-1135). -/
def Sess.expire (now : Duration) : List (Duration × List Nat) → List Entry → TagMap → List (Duration × List Nat) × List Entry × TagMap
  | [], entries, tags => ([], entries, tags)
  | (created, ts) :: rest, entries, tags =>
    if now < created + prevTagMaxAge then ((created, ts) :: rest, entries, tags)
    else Sess.expire now rest (ts.foldl entryDel entries) (tags.removes ts)

/-- `Session::maintain` (1105-1136). -/
def Sess.maintain (now : Duration) (s : Sess) (tags : TagMap) : Sess × TagMap :=
  let (s, tags) := match s.nsr with
    | none => (s, tags)
    | some (created, nsr, _) => if now < created + nsrMaxAge then (s, tags) else ({ s with nsr := none }, tags.removes (nsr.map fun (x : Nat × Entry) => x.2.tag))
  let (expiring, entries, tags) := Sess.expire now s.expiring s.entries tags
  ({ s with expiring, entries }, tags)

/-! ## The session manager -/

/-- `ActiveSession` (mod.rs 100-118). -/
structure Active where
  inAcks : List (Nat × Nat) := []
  lastRecv : Duration
  lastSent : Duration
  leaseSet : Option Bytes := none
  outAcks : List (Nat × Nat) := []
  s : Sess
deriving Repr, DecidableEq

/-- `ActiveSession::new` (121-130). -/
def Active.new (now : Duration) (s : Sess) : Active := { lastRecv := now, lastSent := now, s }

/-- `SessionManager` (164-199), `terminated` are the pending events. The timers of `lease_set_publish_timers` are not kept: when one fires is
an argument (`Op.publish`). -/
structure Mgr where
  id : Bytes
  ctx : KeyCtx
  leaseSet : Bytes
  active : Assoc Active := []
  pending : Assoc Pending := []
  tags : TagMap := .new
  remotes : Assoc Bytes := []
  terminated : List Bytes := []

/-- `SessionManager::new` (203-221). -/
def Mgr.new (C : Cfg) (id sk leaseSet : Bytes) : Mgr := { id, ctx := KeyCtx.new C.P sk, leaseSet }

/-- `register_lease_set` (231-254). -/
def Mgr.registerLeaseSet (m : Mgr) (leaseSet : Bytes) : Mgr :=
  { m with leaseSet, active := m.active.map fun (d, a) => (d, { a with leaseSet := some leaseSet }) }

/-- `add_remote_destination` (262-268). -/
def Mgr.addRemote (m : Mgr) (d pk : Bytes) : Mgr := { m with remotes := m.remotes.put d pk }

/-- `Session::destroy` (session.rs 1139-1151). -/
def Sess.destroy (s : Sess) (tags : TagMap) : TagMap := tags.removes (s.entries.map (·.tag))

/-- `remove_session` (271-285). -/
def Mgr.removeSession (m : Mgr) (d : Bytes) : Mgr :=
  match m.active.get d with
  | none => m
  | some a => { m with active := m.active.del d, tags := a.s.destroy m.tags, terminated := m.terminated ++ [d] }

/-- A set of pairs. Standard or external library, not in /repo. -/
def setPut (l : List (Nat × Nat)) (x : Nat × Nat) : List (Nat × Nat) := if l.contains x then l else l ++ [x]

/-- `publish_local_lease_set` (288-336). Every error is dropped. -/
def Mgr.publish (C : Cfg) (v : Draw) (m : Mgr) (d : Bytes) : Out (Option Bytes) × Mgr :=
  match m.active.get d with
  | none => (.ok none, m)
  | some a =>
    if !a.outAcks.isEmpty || a.leaseSet.isNone then (.ok none, m)
    else match a.s.encrypt C v [storeClove v 0 m.id m.leaseSet, .ackRequest] with
      | (.panic, _) => (.panic, m)
      | (.error _, s) => (.ok none, { m with active := m.active.put d { a with s } })
      | (.ok (i, j, msg), s) => (.ok (some (prefixed msg)), { m with active := m.active.put d { a with s, outAcks := setPut a.outAcks (i, j) } })

/-- `encrypt` (347-525). -/
def Mgr.encrypt (C : Cfg) (v : Draw) (m : Mgr) (d msg : Bytes) : Out Bytes × Mgr :=
  match m.active.get d with
  | some a =>
    let acks := if a.inAcks.isEmpty then [] else [Block.ack a.inAcks]
    let a := { a with inAcks := [] }
    let store := match a.leaseSet with
      | none => []
      | some ls => [storeClove v 1 m.id ls, .ackRequest]
    match a.s.encrypt C v ([dataClove v 0 d msg] ++ acks ++ store) with
    | (.panic, _) => (.panic, m)
    | (.error .terminated, s) => (.error .terminated, { m with active := m.active.put d { a with s } }.removeSession d)
    | (.error e, s) => (.error e, { m with active := m.active.put d { a with s } })
    | (.ok (i, j, out), s) =>
      let a := if a.leaseSet.isNone then { a with s } else { a with s, outAcks := setPut a.outAcks (i, j), lastSent := v.now }
      (.ok (prefixed out), { m with active := m.active.put d a })
  | none =>
    match m.pending.get d with
    | some p =>
      match p.state.advanceOut C v m.ctx m.id d m.leaseSet msg m.tags with
      | (.panic, _, _) => (.panic, m)
      | (.error e, st, tags) => (.error e, { m with tags, pending := m.pending.put d { p with state := st } })
      | (.ok (.send out), st, tags) => (.ok (prefixed out), { m with tags, pending := m.pending.put d { p with state := st } })
      | (.ok (.create out s _ _), _, tags) =>
        (.ok (prefixed out), { m with tags, pending := m.pending.del d, active := m.active.put d (Active.new v.now s) })
      | (.ok (.ret ..), _, _) => (.panic, m)
    | none =>
      match m.remotes.get d with
      | none => (invalid C.chk, m)
      | some pk =>
        match openSession C v m.ctx m.id d pk m.leaseSet msg with
        | none => (.panic, m)
        | some (o, out) =>
          match Pending.outbound C v d pk o m.tags with
          | none => (.panic, m)
          | some (p, tags) => (.ok (prefixed out), { m with tags, pending := m.pending.put d p })

/-- The body of a `DatabaseStore` (mod.rs 604-611). -/
def storeBody : Block → Option Bytes
  | .clove .databaseStore _ _ _ body => some body
  | _ => none

/-- Reading a message without known tag (560-670): the sender and the payload. -/
def Mgr.decryptNew (C : Cfg) (v : Draw) (m : Mgr) (msg : Bytes) : Except Err (Bytes × Bytes) × Mgr :=
  match m.ctx.accept C.P C.E msg with
  | .error e => (.error e, m)
  | .ok (i, plain) =>
    match parse plain with
    | none => (.error .malformed, m)
    | some blocks =>
      match blocks.findSome? storeBody with
      | none => (.error .malformed, m)
      | some body =>
        match C.readStore body with
        | none => (.error .malformed, m)
        | some (key, d) =>
          if key ≠ d then (.error .invalidKey, m)
          else (.ok (d, plain), match m.pending.get d with
            | none => { m with pending := m.pending.put d (Pending.inbound v i) }
            | some _ => m)

/-- Reading a message with a tag of the destination `d` (671-729). -/
def Mgr.decryptTagged (C : Cfg) (v : Draw) (m : Mgr) (d : Bytes) (tag : Nat) (msg : Bytes) : Out (Nat × Nat × Bytes) × Mgr :=
  match m.active.get d with
  | some a =>
    match a.s.decrypt C v d tag msg m.tags with
    | (.panic, _, _) => (.panic, m)
    | (.ok r, s, tags) => (.ok r, { m with tags, active := m.active.put d { a with s, lastRecv := v.now } })
    | (.error .terminated, s, tags) => (.error .terminated, { m with tags, active := m.active.put d { a with s } }.removeSession d)
    | (.error e, s, tags) => (.error e, { m with tags, active := m.active.put d { a with s } })
  | none =>
    match m.pending.get d with
    | some p =>
      match p.state.advanceIn C d tag msg m.tags with
      | (.panic, _, _) => (.panic, m)
      | (.error e, st, tags) => (.error e, { m with tags, pending := m.pending.put d { p with state := st } })
      | (.ok (.create plain s i j), _, tags) =>
        (.ok (i, j, plain), { m with tags, pending := m.pending.del d, active := m.active.put d (Active.new v.now s) })
      | (.ok (.ret plain i j), st, tags) => (.ok (i, j, plain), { m with tags, pending := m.pending.put d { p with state := st } })
      | (.ok (.send _), _, _) => (.panic, m)
    | none => (invalid C.chk, m)

/-- A clove (`GarlicClove`). i2np/garlic.rs 837. -/
structure Clove where
  type : MessageType
  id : Nat
  expiration : Duration
  delivery : Delivery
  body : Bytes
deriving Repr, DecidableEq

/-- The blocks of a message (747-830); the flag says that an assertion failed. -/
def Mgr.blocks (d : Bytes) (tag : Nat × Nat) : List Block → Mgr → List Clove × Bool × Mgr
  | [], m => ([], false, m)
  | .clove type id expiration delivery body :: bs, m =>
    let (cs, f, m) := Mgr.blocks d tag bs m
    ({ type, id, expiration, delivery, body } :: cs, f, m)
  | .ackRequest :: bs, m =>
    match m.active.get d with
    | some a => Mgr.blocks d tag bs { m with active := m.active.put d { a with inAcks := setPut a.inAcks tag } }
    | none => let (cs, _, m) := Mgr.blocks d tag bs m; (cs, true, m)
  | .ack acks :: bs, m =>
    match m.active.get d with
    | some a =>
      let a := if acks.any fun x => a.outAcks.contains x then { a with outAcks := a.outAcks.filter (!acks.contains ·), leaseSet := none } else a
      Mgr.blocks d tag bs { m with active := m.active.put d a }
    | none => let (cs, _, m) := Mgr.blocks d tag bs m; (cs, true, m)
  | _ :: bs, m => Mgr.blocks d tag bs m

/-- The end of `decrypt` (735-832). -/
def Mgr.finish (C : Cfg) (m : Mgr) (d : Bytes) (tag : Nat × Nat) (plain : Bytes) : Out (List Clove) × Mgr :=
  match parse plain with
  | none => (.error .malformed, m)
  | some bs =>
    let (cs, failed, m) := Mgr.blocks d tag bs m
    if failed && C.chk then (.panic, m) else (.ok cs, m)

/-- `decrypt` (541-833). -/
def Mgr.decrypt (C : Cfg) (v : Draw) (m : Mgr) (msg : Bytes) : Out (List Clove) × Mgr :=
  match garlicTag msg with
  | none => (.panic, m)
  | some tag =>
    match m.tags.map tag with
    | none =>
      match m.decryptNew C v msg with
      | (.error e, m) => (.error e, m)
      | (.ok (d, plain), m) => m.finish C d (0, 0) plain
    | some d =>
      match { m with tags := m.tags.remove tag }.decryptTagged C v d tag msg with
      | (.panic, m) => (.panic, m)
      | (.error e, m) => (.error e, m)
      | (.ok (i, j, plain), m) => m.finish C d (i, j) plain

/-- `ES_SEND_TAGSET_TIMEOUT`, `ES_RECEIVE_TAGSET_TIMEOUT` (86, 94). -/
def sendTimeout : Duration := 8 * 60 * 1000000000
/-- destination/session/mod.rs 86, 94. -/
def receiveTimeout : Duration := 10 * 60 * 1000000000

/-- Whether a session has been idle for too long (859-860). -/
def Active.idle (now : Duration) (a : Active) : Bool := decide (a.lastRecv + receiveTimeout < now) && decide (a.lastSent + sendTimeout < now)

/-- The last line of `maintain` (877). -/
def maintainAll (now : Duration) : Assoc Active → TagMap → Assoc Active × TagMap
  | [], tags => ([], tags)
  | (d, a) :: rest, tags =>
    let (s, tags) := a.s.maintain now tags
    let (rest, tags) := maintainAll now rest tags
    ((d, { a with s }) :: rest, tags)

/-- `maintain` (840-878). -/
def Mgr.maintain (now : Duration) (m : Mgr) : Mgr :=
  let pending := m.pending.filter fun x => !x.2.expired now
  let tags := (m.active.filter fun x => x.2.idle now).foldl (fun t x => x.2.s.destroy t) m.tags
  let (active, tags) := maintainAll now (m.active.filter fun x => !x.2.idle now) tags
  { m with pending, active, tags }

/-- The calls of the manager. Not in the code: the events that the theorems quantify over. -/
inductive Op where
  | addRemote (d pk : Bytes)
  | registerLeaseSet (ls : Bytes)
  | encrypt (v : Draw) (d msg : Bytes)
  | decrypt (v : Draw) (msg : Bytes)
  | publish (v : Draw) (d : Bytes)
  | maintain (now : Duration)

/-- What they return. Not in the code: the effects that can be observed. -/
inductive Ret where
  | unit
  | sent (r : Out Bytes)
  | received (r : Out (List Clove))
  | published (r : Out (Option Bytes))
deriving Repr, DecidableEq

/-- Not in the code: one event, handled by the definitions above. -/
def Mgr.step (C : Cfg) (m : Mgr) : Op → Ret × Mgr
  | .addRemote d pk => (.unit, m.addRemote d pk)
  | .registerLeaseSet ls => (.unit, m.registerLeaseSet ls)
  | .encrypt v d msg => let (r, m) := m.encrypt C v d msg; (.sent r, m)
  | .decrypt v msg => let (r, m) := m.decrypt C v msg; (.received r, m)
  | .publish v d => let (r, m) := m.publish C v d; (.published r, m)
  | .maintain now => (.unit, m.maintain now)

end Emissary.Ecies
