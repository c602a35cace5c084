import Verif.Model.NetdbWire
import Verif.Props.TunnelBuildIn
import Verif.Props.TunnelDemo
import Verif.Props.NetdbServe
import Verif.Props.I2np
import Verif.Props.Primitives
/-!
# What the network database says on the wire (C278) and a published lease set is found (C279)
-/
namespace Emissary.NetdbWire
open Emissary Emissary.I2np
open Emissary.Ssu2 (Prims)
open Emissary.TBuild (handleGarlic i2npExpiration Digests)

/-! ## Specification -/

/-- The router whose private key is `sk`, given the message at the time, unpacks `lm` for itself and nothing else, also when the header of the message was
rewritten on the way (an outbound endpoint does that). -/
def Opens (P : Prims) (sk : Bytes) (now : Duration) (bytes : Bytes) (lm : Message) : Prop :=
  ∃ m, Message.parseStandard bytes = some (m, []) ∧ m.type = .garlic ∧
    ∀ (m' : Message) (mid : Nat), m'.payload = m.payload → handleGarlic P sk now mid m' = some [.localMsg lm]

/-- The task, given the message, takes it for the event. -/
def Means (E : Prim.Env) (ri : Bytes → Option NetdbRun.RInfo) (sender : Option Bytes) (m : Message) (op : NetdbRun.Op) : Prop :=
  m.destination = .netDb ∧ read E ri sender m = some op

/-- Values as they are drawn and a clock that fits the wire. -/
structure Sane (now : Duration) (rnd : Rnd) : Prop where
  clove : rnd.cloveId < 2 ^ 32
  message : rnd.messageId < 2 ^ 32
  inner : rnd.innerId < 2 ^ 32
  now : now + 10000000000 < 2 ^ 32 * 1000000000

/-- An inbound tunnel as it can be named on the wire. -/
structure LeaseOk (l : NetdbRun.Lease) : Prop where
  router : l.router.length = 32
  pos : 0 < l.tunnel
  tunnel : l.tunnel < 2 ^ 32

/-! ## Lemmas -/

theorem garlicTo_ok {P : Prims} (hP : P.Lawful) (hD : Digests P) (now now' : Duration) (rnd : Rnd) (sk : Bytes) (type : MessageType) (body : Bytes)
    (hs : Sane now rnd) (hlen : body.length ≤ 65000) (hfresh : now' ≤ (now + i2npExpiration) / 1000000000 * 1000000000) :
    ∃ bytes, garlicTo P now rnd (P.pub sk) type body = some bytes ∧
      Opens P sk now' bytes ⟨type, rnd.cloveId, fromSecs ((now + i2npExpiration) / 1000000000), body⟩ := by
  obtain ⟨hc, hm, -, hn⟩ := hs
  have hnow' : now + i2npExpiration < 2 ^ 32 * 1000000000 := TBuild.lt_aux _ hn
  obtain ⟨e1, e2⟩ := TBuild.exp_secs _ hnow'
  have e3 : (now + i2npExpiration) / 1000000 < 2 ^ 64 := Nat.lt_of_le_of_lt (Nat.div_le_self _ _) (Nat.lt_trans hnow' (by decide))
  obtain ⟨plain, hb, hparse⟩ := Garlic.C22_garlic_message_roundtrip
    [.dateTime (asSecs now % 2 ^ 32), .clove type rnd.cloveId (now + i2npExpiration) .localNode body] (by simp) (by
      intro b hb
      simp only [List.mem_cons, List.not_mem_nil, or_false] at hb
      rcases hb with rfl | rfl
      · exact Nat.mod_lt _ (by decide)
      · exact ⟨hc, e1, trivial, by omega⟩)
  have hpl : plain.length = body.length + 20 := by
    have e : plain = _ := (Option.some.inj hb).symm
    rw [e]
    simp [Garlic.Delivery.serialize, be_length]
    omega
  have hagree := TBuild.garlic_agree hP sk rnd.esk
  generalize hkt : TBuild.garlicOut P (P.pub sk) rnd.esk = kt at *
  obtain ⟨key, tag⟩ := kt
  generalize hsealed : P.seal key 0 tag plain = sealed at *
  have hsl : sealed.length = body.length + 36 := by rw [← hsealed, TBuild.seal_length hP, hpl]
  have hpub := hP.pub rnd.esk
  generalize hout : be 4 (sealed.length + 32) ++ P.pub rnd.esk ++ sealed = out at *
  have hol : out.length = body.length + 72 := by
    rw [← hout]; simp only [List.length_append, be_length, hpub, hsl]; omega
  have hstd := C17_standard_header_roundtrip P.sha (fun b => Nat.lt_of_lt_of_le (by decide) (hD.sha b)) ⟨.garlic, rnd.messageId, now + i2npExpiration, out⟩ [] hm e3
    (by intro h; simp only at h; rw [h] at hol; simp at hol) (by simp only; omega)
  rw [List.append_nil] at hstd
  refine ⟨(Message.mk .garlic rnd.messageId (now + i2npExpiration) out).serializeStandard P.sha, ?_, _, hstd, rfl, ?_⟩
  · simp only [garlicTo, hb, Option.bind_eq_bind, Option.bind_some, hkt, hsealed, hout]
    rfl
  · intro m' mid hm'
    have hm' : m'.payload = out := hm'
    have h1 : (out.drop 4).take 32 = P.pub rnd.esk := by
      rw [← hout, List.append_assoc, List.drop_left' (be_length _ _), List.take_left' hpub]
    have h2 : out.drop 36 = sealed := by
      rw [← hout, List.drop_left' (by simp [be_length, hpub])]
    have h3 : P.unseal key 0 tag sealed = some plain := by rw [← hsealed, TBuild.unseal_seal hP]
    have := TBuild.handleGarlic_eq P sk now' mid m' key tag plain _ _ _ _ _ (by rw [hm']; omega)
      (by rw [hm', h1, hagree]) (by rw [hm', h2, h3]) hparse (Nat.not_lt.mpr hfresh)
    rw [e2] at this
    exact this

theorem storeBuild_length (key raw : Bytes) (rep : StoreReply) (hk : key.length = 32) (hrep : rep.WellFormed) :
    (storeBuild key (.leaseSet2 raw) rep).length ≤ 77 + raw.length := by
  cases rep with
  | none => simp [storeBuild, StoreReply.serialize, be_length, hk]; omega
  | tunnel token t h => simp [storeBuild, StoreReply.serialize, be_length, hk, hrep.2.2.2.2]; omega
  | router token h => simp [storeBuild, StoreReply.serialize, be_length, hk, hrep.2.2]; omega

theorem read_leaseSet (E : Prim.Env) (ri : Bytes → Option NetdbRun.RInfo) (sender : Option Bytes) (key raw : Bytes) (l : Prim.LeaseSet2) (rep : StoreReply)
    (id : Nat) (e : Duration) (hk : key.length = 32) (hrep : rep.WellFormed) (hl : Prim.LeaseSet2.parse E raw = some (l, [])) :
    Means E ri sender ⟨.databaseStore, id, e, storeBuild key (.leaseSet2 raw) rep⟩ (.store sender key (.leaseSet (view l raw)) (storeReply rep)) := by
  refine ⟨rfl, ?_⟩
  have h1 := C21_store_lease_set_roundtrip ri (Prim.LeaseSet2.parse E) key raw l rep [] hk hrep (by rw [List.append_nil]; exact hl)
  rw [List.append_nil] at h1
  have h2 : extractRaw false (storeBuild key (.leaseSet2 raw) rep) = some raw := by
    have hp := StoreReply.parse_serialize rep hrep raw
    obtain ⟨⟨token, r1⟩, e1, e2⟩ := Option.bind_eq_some_iff.mp hp
    simp only at e2
    simp only [extractRaw, storeBuild, List.append_assoc, takeN_append hk, bind_some_pair, beU_be, e1, skipReply_of_parse e2, bind_some_val]
    rfl
  simp only [read, h1, Option.bind_eq_bind, Option.bind_some, h2]
  rfl

theorem read_routerInfo (E : Prim.Env) (ri : Bytes → Option NetdbRun.RInfo) (sender : Option Bytes) (key raw : Bytes) (r : NetdbRun.RInfo) (rep : StoreReply)
    (id : Nat) (e : Duration) (hk : key.length = 32) (hrep : rep.WellFormed) (hd : raw.length < 2 ^ 16) (hr : ri raw = some r) :
    Means E ri sender ⟨.databaseStore, id, e, storeBuild key (.routerInfo raw) rep⟩
      (.store sender key (.routerInfo { r with raw := raw }) (storeReply rep)) := by
  refine ⟨rfl, ?_⟩
  have h1 := C21_store_router_info_roundtrip ri (Prim.LeaseSet2.parse E) key raw r rep [] hk hrep hd hr
  rw [List.append_nil] at h1
  have h2 : extractRaw true (storeBuild key (.routerInfo raw) rep) = some raw := by
    have hp := StoreReply.parse_serialize rep hrep (be 2 raw.length ++ raw)
    obtain ⟨⟨token, r1⟩, e1, e2⟩ := Option.bind_eq_some_iff.mp hp
    simp only at e2
    have h0 : raw.length % 256 ^ 2 = raw.length := Nat.mod_eq_of_lt (by omega)
    have ht := takeN_append (Eq.refl raw.length) (r := ([] : Bytes))
    rw [List.append_nil] at ht
    simp only [extractRaw, storeBuild, List.append_assoc, takeN_append hk, bind_some_pair, beU_be, e1, skipReply_of_parse e2, bind_some_val, h0, ht, if_true]
    rfl
  simp only [read, h1, Option.bind_eq_bind, Option.bind_some, h2]
  rfl

theorem read_lookup (E : Prim.Env) (ri : Bytes → Option NetdbRun.RInfo) (sender : Option Bytes) (d : DatabaseLookup) (id : Nat) (e : Duration) (h : d.WellFormed) :
    Means E ri sender ⟨.databaseLookup, id, e, d.serialize⟩ (.lookup d.key (lookupKind d.lookup) (lookupReply d.reply) d.ignore) := by
  refine ⟨rfl, ?_⟩
  have h1 := C20_database_lookup_roundtrip d [] h
  rw [List.append_nil] at h1
  simp only [read, h1, Option.bind_eq_bind, Option.bind_some]
  rfl

theorem read_search (E : Prim.Env) (ri : Bytes → Option NetdbRun.RInfo) (sender : Option Bytes) (d : SearchReply) (id : Nat) (e : Duration) (hk : d.key.length = 32)
    (hs : d.sender.length = 32) (hr : ∀ x ∈ d.routers, x.length = 32) (hn : d.routers.length ≤ 255) :
    Means E ri sender ⟨.databaseSearchReply, id, e, d.serialize⟩ (.search sender (some (d.key, d.routers, d.sender))) := by
  refine ⟨rfl, ?_⟩
  have h1 := C19_search_reply_roundtrip d [] hk hs hr hn
  rw [List.append_nil] at h1
  simp only [read, h1, Option.map_some]

theorem lookup_length (key : Bytes) (t : LookupType) (inb : NetdbRun.Lease) (hk : key.length = 32) (hl : LeaseOk inb) :
    (DatabaseLookup.serialize ⟨[], key, t, .tunnel inb.tunnel inb.router⟩).length = 71 := by
  simp [DatabaseLookup.serialize, be_length, hk, hl.router]

theorem lookup_wf (key : Bytes) (t : LookupType) (inb : NetdbRun.Lease) (hk : key.length = 32) (hl : LeaseOk inb) :
    (DatabaseLookup.mk [] key t (.tunnel inb.tunnel inb.router)).WellFormed := ⟨hk, by simp, by simp, hl.tunnel, hl.router⟩

/-! ## C278 -/

/-- C278, publication: the floodfill a lease set is sent to unpacks a store of that lease set under that key, with the bytes that were published, asking for
the delivery status with the token drawn through the inbound tunnel that was chosen. Missing: a token that is not zero (`C278_token_violated`). -/
theorem C278_published_partial {P : Prims} (hP : P.Lawful) (hD : Digests P) (E : Prim.Env) (ri : Bytes → Option NetdbRun.RInfo) (sender : Option Bytes)
    (now now' : Duration) (rnd : Rnd) (sk key raw : Bytes) (l : Prim.LeaseSet2) (inb : NetdbRun.Lease) (hs : Sane now rnd) (hk : key.length = 32)
    (hi : LeaseOk inb) (hl : Prim.LeaseSet2.parse E raw = some (l, [])) (hlen : raw.length ≤ 64000) (ht : 0 < rnd.token) (ht' : rnd.token < 2 ^ 32)
    (hfresh : now' ≤ (now + 8000000000) / 1000000000 * 1000000000) :
    ∃ bytes lm, storeRequest P now rnd (P.pub sk) key raw inb = some bytes ∧ Opens P sk now' bytes lm ∧
      Means E ri sender lm (.store sender key (.leaseSet (view l raw)) (.tunnel rnd.token inb.tunnel inb.router)) := by
  have hrep : (StoreReply.tunnel rnd.token inb.tunnel inb.router).WellFormed := ⟨ht, ht', hi.pos, hi.tunnel, hi.router⟩
  obtain ⟨bytes, h1, h2⟩ := garlicTo_ok hP hD now now' rnd sk .databaseStore (storeBuild key (.leaseSet2 raw) (.tunnel rnd.token inb.tunnel inb.router)) hs
    (Nat.le_trans (storeBuild_length key raw _ hk hrep) (by omega)) hfresh
  exact ⟨bytes, _, h1, h2, read_leaseSet E ri sender key raw l _ _ _ hk hrep hl⟩

/-- C278 is violated when the token drawn is zero, which nothing excludes: whatever the floodfill makes of the store, it does not ask for a delivery status,
and the lease set is looked for where the tunnel id and the gateway are. -/
theorem C278_token_violated {P : Prims} (hP : P.Lawful) (hD : Digests P) (E : Prim.Env) (ri : Bytes → Option NetdbRun.RInfo) (sender : Option Bytes)
    (now now' : Duration) (rnd : Rnd) (sk key raw : Bytes) (inb : NetdbRun.Lease) (hs : Sane now rnd) (hk : key.length = 32)
    (hi : LeaseOk inb) (hlen : raw.length ≤ 64000) (ht : rnd.token = 0)
    (hfresh : now' ≤ (now + 8000000000) / 1000000000 * 1000000000) :
    ∃ bytes lm, storeRequest P now rnd (P.pub sk) key raw inb = some bytes ∧ Opens P sk now' bytes lm ∧
      (∀ op, read E ri sender lm = some op → ∃ p, op = .store sender key p .none) ∧
      (Prim.LeaseSet2.parse E (be 4 inb.tunnel ++ inb.router ++ raw) = none → read E ri sender lm = none) := by
  obtain ⟨bytes, h1, h2⟩ := garlicTo_ok hP hD now now' rnd sk .databaseStore (storeBuild key (.leaseSet2 raw) (.tunnel rnd.token inb.tunnel inb.router)) hs
    (by simp [storeBuild, StoreReply.serialize, be_length, hk, hi.router]; omega) hfresh
  refine ⟨bytes, _, h1, h2, ?_⟩
  have e : DatabaseStore.parse ri (Prim.LeaseSet2.parse E) (storeBuild key (.leaseSet2 raw) (.tunnel rnd.token inb.tunnel inb.router)) =
      (Prim.LeaseSet2.parse E (be 4 inb.tunnel ++ inb.router ++ raw)).bind fun x => some (⟨key, .leaseSet2 x.1, .none⟩, x.2) := by
    have : StoreType.ofByte (StoreType.leaseSet2.code % 256 ^ 1) = some .leaseSet2 := by decide
    simp only [DatabaseStore.parse, storeBuild, StoreReply.serialize, List.append_assoc, takeN_append hk, bind_some_pair, beU_be, ht, Nat.zero_mod, this,
      bind_some_val, StoreReply.parse, if_true]
    rfl
  constructor
  · intro op h
    simp only [read, e, Option.bind_eq_bind] at h
    cases hp : Prim.LeaseSet2.parse E (be 4 inb.tunnel ++ inb.router ++ raw) with
    | none => rw [hp] at h; cases h
    | some x =>
      rw [hp] at h
      simp only [Option.bind_some] at h
      cases hr : extractRaw false (storeBuild key (.leaseSet2 raw) (.tunnel rnd.token inb.tunnel inb.router)) with
      | none => rw [hr] at h; cases h
      | some y => rw [hr] at h; exact ⟨_, (Option.some.inj h).symm⟩
  · intro hp
    simp only [read, e, hp]
    rfl

/-- C278, lookup of a lease set (of another destination, or of one's own to see whether it was stored): the floodfill unpacks a lookup of a lease set under
that key, to be answered through the inbound tunnel that was chosen, with nobody excluded. -/
theorem C278_lease_set_lookup {P : Prims} (hP : P.Lawful) (hD : Digests P) (E : Prim.Env) (ri : Bytes → Option NetdbRun.RInfo) (sender : Option Bytes)
    (now now' : Duration) (rnd : Rnd) (sk key : Bytes) (inb : NetdbRun.Lease) (hs : Sane now rnd) (hk : key.length = 32) (hi : LeaseOk inb)
    (hfresh : now' ≤ (now + 8000000000) / 1000000000 * 1000000000) :
    ∃ bytes lm, leaseSetRequest P now rnd (P.pub sk) key inb = some bytes ∧ Opens P sk now' bytes lm ∧
      Means E ri sender lm (.lookup key .leaseSet (.tunnel inb.tunnel inb.router) []) := by
  obtain ⟨bytes, h1, h2⟩ := garlicTo_ok hP hD now now' rnd sk .databaseLookup (DatabaseLookup.serialize ⟨[], key, .leaseSet, .tunnel inb.tunnel inb.router⟩) hs
    (by rw [lookup_length key _ inb hk hi]; decide) hfresh
  exact ⟨bytes, _, h1, h2, read_lookup E ri sender _ _ _ (lookup_wf key .leaseSet inb hk hi)⟩

/-- C278, lookups of router infos and explorations: they are read as what they are. -/
theorem C278_router_lookup (sha : Bytes → Bytes) (hsha : ∀ b, 0 < (sha b).length) (E : Prim.Env) (ri : Bytes → Option NetdbRun.RInfo) (sender : Option Bytes)
    (now : Duration) (rnd : Rnd) (key : Bytes) (inb : NetdbRun.Lease) (hs : Sane now rnd) (hk : key.length = 32) (hi : LeaseOk inb) :
    (∃ m, Message.parseStandard (routerRequest sha now rnd key inb) = some (m, []) ∧
      Means E ri sender m (.lookup key .router (.tunnel inb.tunnel inb.router) [])) ∧
    (∃ m, Message.parseStandard (explorationRequest sha now rnd key inb) = some (m, []) ∧
      Means E ri sender m (.lookup key .exploration (.tunnel inb.tunnel inb.router) [])) := by
  have hnow' : now + i2npExpiration < 2 ^ 32 * 1000000000 := TBuild.lt_aux _ hs.now
  have e3 : (now + i2npExpiration) / 1000000 < 2 ^ 64 := Nat.lt_of_le_of_lt (Nat.div_le_self _ _) (Nat.lt_trans hnow' (by decide))
  have go : ∀ t : LookupType, Message.parseStandard ((Message.mk .databaseLookup rnd.messageId (now + i2npExpiration)
      (DatabaseLookup.serialize ⟨[], key, t, .tunnel inb.tunnel inb.router⟩)).serializeStandard sha) =
      some (⟨.databaseLookup, rnd.messageId, (now + i2npExpiration) / 1000000 * 1000000, DatabaseLookup.serialize ⟨[], key, t, .tunnel inb.tunnel inb.router⟩⟩, []) := by
    intro t
    have hl := lookup_length key t inb hk hi
    have h := C17_standard_header_roundtrip sha hsha ⟨.databaseLookup, rnd.messageId, now + i2npExpiration,
      DatabaseLookup.serialize ⟨[], key, t, .tunnel inb.tunnel inb.router⟩⟩ [] hs.message e3
      (by intro h; simp only at h; rw [h] at hl; simp at hl) (by simp only; rw [hl]; decide)
    rw [List.append_nil] at h
    exact h
  exact ⟨⟨_, go .router, read_lookup E ri sender _ _ _ (lookup_wf key .router inb hk hi)⟩,
    ⟨_, go .exploration, read_lookup E ri sender _ _ _ (lookup_wf key .exploration inb hk hi)⟩⟩

/-- What a message the task sends says to the task of another router, and the tunnel to whose gateway it is sent, if to one. -/
inductive Says (E : Prim.Env) (ri : Bytes → Option NetdbRun.RInfo) (localId : Bytes) (token : Nat) (sender : Option Bytes) :
    NetdbRun.Msg → Option Nat → NetdbRun.Op → Prop
  | leaseSet (key raw : Bytes) (l : Prim.LeaseSet2) : key.length = 32 → raw.length ≤ 64000 → Prim.LeaseSet2.parse E raw = some (l, []) →
    Says E ri localId token sender (.storeLeaseSet key raw) none (.store sender key (.leaseSet (view l raw)) .none)
  | routerInfo (key raw : Bytes) (r : NetdbRun.RInfo) : key.length = 32 → raw.length ≤ 64000 → ri raw = some r → r.raw = raw →
    Says E ri localId token sender (.storeRouterInfo key raw) none (.store sender key (.routerInfo r) .none)
  | search (key : Bytes) (routers : List Bytes) (t : Option Nat) : key.length = 32 → (∀ x ∈ routers, x.length = 32) → routers.length ≤ 255 →
    (∀ n, t = some n → n < 2 ^ 32) → Says E ri localId token sender (.searchReply key routers t) t (.search sender (some (key, routers, localId)))
  | publish (key raw : Bytes) (r : NetdbRun.RInfo) : key.length = 32 → raw.length ≤ 64000 → ri raw = some r → r.raw = raw → 0 < token → token < 2 ^ 32 →
    Says E ri localId token sender (.publish key raw) none (.store sender key (.routerInfo r) (.router token localId))

/-- What comes out of the bytes handed to the transport: a short message, or the message in a tunnel message for that tunnel. -/
def Arrives (bytes : Bytes) (t : Option Nat) (m : Message) : Prop :=
  match t with
  | none => Message.parseShort bytes = some (m, [])
  | some t => ∃ g inner, Message.parseShort bytes = some (g, []) ∧ g.type = .tunnelGateway ∧ TunnelGateway.parse g.payload = some (⟨t, inner⟩, []) ∧
      Message.parseStandard inner = some (m, [])

theorem arrives (sha : Bytes → Bytes) (hsha : ∀ b, 0 < (sha b).length) (localId : Bytes) (now : Duration) (rnd : Rnd) (hs : Sane now rnd) (m : NetdbRun.Msg)
    (hne : (content localId now rnd m).2 ≠ []) (hlen : (content localId now rnd m).2.length ≤ 65000) (hg : ∀ n, gateway m = some n → n < 2 ^ 32) :
    (∃ e, Message.parseStandard (toTunnel sha localId now rnd m) =
      some (⟨(content localId now rnd m).1, rnd.messageId, e, (content localId now rnd m).2⟩, [])) ∧
    (∃ id e, Arrives (toRouter sha localId now rnd m) (gateway m) ⟨(content localId now rnd m).1, id, e, (content localId now rnd m).2⟩) := by
  have hnow' : now + i2npExpiration < 2 ^ 32 * 1000000000 := TBuild.lt_aux _ hs.now
  obtain ⟨e1, -⟩ := TBuild.exp_secs _ hnow'
  have e3 : (now + i2npExpiration) / 1000000 < 2 ^ 64 := Nat.lt_of_le_of_lt (Nat.div_le_self _ _) (Nat.lt_trans hnow' (by decide))
  generalize hc : content localId now rnd m = c at *
  obtain ⟨ty, body⟩ := c
  have std : ∀ id, id < 2 ^ 32 → Message.parseStandard ((Message.mk ty id (now + i2npExpiration) body).serializeStandard sha) =
      some (⟨ty, id, (now + i2npExpiration) / 1000000 * 1000000, body⟩, []) := by
    intro id hid
    have h := C17_standard_header_roundtrip sha hsha ⟨ty, id, now + i2npExpiration, body⟩ [] hid e3 hne (Nat.le_trans hlen (by decide))
    rw [List.append_nil] at h
    exact h
  have sht : ∀ (ty : MessageType) (body : Bytes), body ≠ [] → body.length ≤ 65526 →
      Message.parseShort (Message.mk ty rnd.messageId (now + i2npExpiration) body).serializeShort =
      some (⟨ty, rnd.messageId, (now + i2npExpiration) / 1000000000 * 1000000000, body⟩, []) := by
    intro ty body hne hlen
    have h := C16_short_header_roundtrip ⟨ty, rnd.messageId, now + i2npExpiration, body⟩ [] hs.message e1 hne hlen
    rw [List.append_nil] at h
    exact h
  constructor
  · exact ⟨_, by simp only [toTunnel, hc]; exact std rnd.messageId hs.message⟩
  · cases ht : gateway m with
    | none =>
      refine ⟨rnd.messageId, (now + i2npExpiration) / 1000000000 * 1000000000, ?_⟩
      show Message.parseShort _ = _
      simp only [toRouter, hc, ht]
      exact sht ty body hne (Nat.le_trans hlen (by decide))
    | some t =>
      refine ⟨rnd.innerId, (now + i2npExpiration) / 1000000 * 1000000, ?_⟩
      have hl : ((Message.mk ty rnd.innerId (now + i2npExpiration) body).serializeStandard sha).length ≤ 65016 := by
        have : ∀ b, ((sha b).take 1).length ≤ 1 := fun b => by simp; omega
        simp only [Message.serializeStandard, List.length_append, be_length]
        have := this body
        simp only at hlen
        omega
      have htg := C19_tunnel_gateway_roundtrip ⟨t, (Message.mk ty rnd.innerId (now + i2npExpiration) body).serializeStandard sha⟩ [] (hg t ht)
        (Nat.lt_of_le_of_lt hl (by decide))
      rw [List.append_nil] at htg
      refine ⟨⟨.tunnelGateway, rnd.messageId, (now + i2npExpiration) / 1000000000 * 1000000000, (TunnelGateway.mk t
          ((Message.mk ty rnd.innerId (now + i2npExpiration) body).serializeStandard sha)).serialize⟩, _, ?_, rfl, htg, std rnd.innerId hs.inner⟩
      · simp only [toRouter, hc, ht]
        refine sht .tunnelGateway _ ?_ ?_
        · intro h
          have := congrArg List.length h
          simp [TunnelGateway.serialize, be_length] at this
        · simp only [TunnelGateway.serialize, List.length_append, be_length]
          omega

/-- C278, answers, floods and the router's own info: what is sent through a tunnel, to a router or to the gateway of a tunnel comes out as what it was meant
to say. -/
theorem C278_sent_partial (sha : Bytes → Bytes) (hsha : ∀ b, 0 < (sha b).length) (E : Prim.Env) (ri : Bytes → Option NetdbRun.RInfo) (sender : Option Bytes)
    (localId : Bytes) (hid : localId.length = 32) (now : Duration) (rnd : Rnd) (hs : Sane now rnd) (m : NetdbRun.Msg) (t : Option Nat) (op : NetdbRun.Op)
    (h : Says E ri localId rnd.token sender m t op) :
    (∃ x, Message.parseStandard (toTunnel sha localId now rnd m) = some (x, []) ∧ Means E ri sender x op) ∧
    (∃ x, Arrives (toRouter sha localId now rnd m) t x ∧ Means E ri sender x op) := by
  have key : gateway m = t ∧ (content localId now rnd m).2 ≠ [] ∧ (content localId now rnd m).2.length ≤ 65000 ∧ (∀ n, gateway m = some n → n < 2 ^ 32) ∧
      ∀ id e, Means E ri sender ⟨(content localId now rnd m).1, id, e, (content localId now rnd m).2⟩ op := by
    cases h with
    | leaseSet key raw l hk hl hp =>
      refine ⟨rfl, ?_, Nat.le_trans (storeBuild_length key raw .none hk trivial) (by omega), nofun, fun id e => read_leaseSet E ri sender key raw l .none id e hk trivial hp⟩
      intro h
      have := congrArg List.length h
      simp [content, storeBuild, be_length] at this
    | routerInfo key raw r hk hl hp hr =>
      refine ⟨rfl, ?_, ?_, nofun, fun id e => ?_⟩
      · intro h
        have := congrArg List.length h
        simp [content, storeBuild, be_length] at this
      · simp [content, storeBuild, StoreReply.serialize, be_length, hk]; omega
      · have := read_routerInfo E ri sender key raw r .none id e hk trivial (by omega) hp
        rw [← hr] at this ⊢
        exact this
    | search key routers t hk hr hn ht =>
      refine ⟨rfl, ?_, ?_, ht, fun id e => read_search E ri sender ⟨localId, key, routers⟩ id e hk hid hr hn⟩
      · intro h
        have := congrArg List.length h
        simp [content, SearchReply.serialize, be_length] at this
      · have hf : routers.flatten.length = 32 * routers.length := by
          clear hn
          induction routers with
          | nil => rfl
          | cons a l ih =>
            simp only [List.flatten_cons, List.length_append, List.length_cons]
            rw [ih (fun x hx => hr x (List.mem_cons_of_mem _ hx)), hr a List.mem_cons_self]
            omega
        simp only [content, SearchReply.serialize, List.length_append, be_length, hk, hid, hf]
        omega
    | publish key raw r hk hl hp hr ht ht' =>
      refine ⟨rfl, ?_, ?_, nofun, fun id e => ?_⟩
      · intro h
        have := congrArg List.length h
        simp [content, storeBuild, be_length] at this
      · simp [content, storeBuild, StoreReply.serialize, be_length, hk, hid]; omega
      · have := read_routerInfo E ri sender key raw r (.router rnd.token localId) id e hk ⟨ht, ht', hid⟩ (by omega) hp
        rw [← hr] at this ⊢
        exact this
  obtain ⟨k1, k2, k3, k4, k5⟩ := key
  obtain ⟨⟨e, h1⟩, id, e', h2⟩ := arrives sha hsha localId now rnd hs m k2 k3 k4
  rw [k1] at h2
  exact ⟨⟨_, h1, k5 _ _⟩, ⟨_, h2, k5 _ _⟩⟩

/-- C278, confirmations: the delivery status a store asked for arrives at the gateway of the tunnel (or at the router) named in the store, with the token of
the store. -/
theorem C278_status (sha : Bytes → Bytes) (hsha : ∀ b, 0 < (sha b).length) (localId : Bytes) (now : Duration) (rnd : Rnd) (hs : Sane now rnd) (token : Nat)
    (t : Option Nat) (ht : token < 2 ^ 32) (htn : ∀ n, t = some n → n < 2 ^ 32) :
    ∃ x, Arrives (toRouter sha localId now rnd (.status token t)) t x ∧ x.type = .deliveryStatus ∧
      DeliveryStatus.parse x.payload = some (⟨token, now / 1000000 * 1000000⟩, []) := by
  have hnow : now / 1000000 < 2 ^ 64 := Nat.lt_of_le_of_lt (Nat.div_le_self _ _) (Nat.lt_of_le_of_lt (Nat.le_add_right _ _) (Nat.lt_trans hs.now (by decide)))
  obtain ⟨-, id, e, h⟩ := arrives sha hsha localId now rnd hs (.status token t) (by
    intro h
    have := congrArg List.length h
    simp [content, DeliveryStatus.serialize, be_length] at this) (by simp [content, DeliveryStatus.serialize, be_length]) htn
  have hd := C19_delivery_status_roundtrip ⟨token, now⟩ [] ht hnow
  rw [List.append_nil] at hd
  exact ⟨_, h, rfl, hd⟩

/-! ## C279 -/

/-- C279: a lease set that was published is found. The floodfill it was sent to unpacks the store, and from then on, until the first expiration in the lease
set and as long as nobody stores another lease set under the key, whatever else happens at the floodfill, it answers a lookup of the key with a message for
the tunnel the lookup names. That message gives everyone who waits for the key at the router that asked the lease set as it was published. Missing: the
lease set stays until its last lease expires and only a newer one replaces it (`C141_early_violated`, `C141_replaced_violated`), a token that is not zero
(`C278_token_violated`). -/
theorem C279_found_partial {P : Prims} (hP : P.Lawful) (hD : Digests P) (E : Prim.Env) (ri : Bytes → Option NetdbRun.RInfo) (s1 s2 s3 : Option Bytes)
    -- the destination that publishes
    (key raw : Bytes) (l : Prim.LeaseSet2) (hk : key.length = 32) (hl : Prim.LeaseSet2.parse E raw = some (l, [])) (hlen : raw.length ≤ 64000)
    (n1 n1' : Duration) (r1 : Rnd) (h1 : Sane n1 r1) (in1 : NetdbRun.Lease) (hin1 : LeaseOk in1) (ht : 0 < r1.token) (ht' : r1.token < 2 ^ 32)
    (hf1 : n1' ≤ (n1 + 8000000000) / 1000000000 * 1000000000)
    -- the floodfill
    (sk localId : Bytes) (hid : localId.length = 32) (netId : Nat) (fd rd : Netdb.Table) (t0 : Nat) (env0 env1 env2 : NetdbRun.Env) (before evs : List (NetdbRun.Env × NetdbRun.Op))
    (hidle : ((NetdbRun.State.init localId netId true fd rd t0 env0).run before).active.get key = none)
    (hcur : NetdbRun.Current (view l raw) ((NetdbRun.State.init localId netId true fd rd t0 env0).run before).now)
    (hother : ∀ e ∈ evs, e.2.storesLs key = false)
    -- the router that asks
    (n2 n2' : Duration) (r2 : Rnd) (h2 : Sane n2 r2) (in2 : NetdbRun.Lease) (hin2 : LeaseOk in2)
    (hf2 : n2' ≤ (n2 + 8000000000) / 1000000000 * 1000000000)
    -- the answer
    (n3 : Duration) (r3 : Rnd) (h3 : Sane n3 r3) :
    let F := (NetdbRun.State.init localId netId true fd rd t0 env0).run before
    ∃ b1 m1 op1, storeRequest P n1 r1 (P.pub sk) key raw in1 = some b1 ∧ Opens P sk n1' b1 m1 ∧ Means E ri s1 m1 op1 ∧
    let F' := (F.step env1 op1).run evs
    (F'.now ≤ (view l raw).expires →
    ∃ b2 m2 op2, leaseSetRequest P n2 r2 (P.pub sk) key in2 = some b2 ∧ Opens P sk n2' b2 m2 ∧ Means E ri s2 m2 op2 ∧
    ∃ answer, (F'.step env2 op2).log = F'.log ++ [.viaTunnel in2.router in2.tunnel answer] ∧
    ∃ m3 op3, Message.parseStandard (toTunnel P.sha localId n3 r3 answer) = some (m3, []) ∧ Means E ri s3 m3 op3 ∧
    ∀ (A : NetdbRun.State) (q : NetdbRun.Query) (env3 : NetdbRun.Env), A.active.get key = some (.leaseSet q) →
      (A.step env3 op3).log = A.log ++ q.subs.map fun tx => .leaseSet tx (.ok (view l raw))) := by
  intro F
  obtain ⟨b1, m1, hb1, ho1, hm1⟩ := C278_published_partial hP hD E ri s1 n1 n1' r1 sk key raw l in1 h1 hk hin1 hl hlen ht ht' hf1
  refine ⟨b1, m1, _, hb1, ho1, hm1, ?_⟩
  intro F' hnow
  obtain ⟨b2, m2, hb2, ho2, hm2⟩ := C278_lease_set_lookup hP hD E ri s2 n2 n2' r2 sk key in2 h2 hk hin2 hf2
  refine ⟨b2, m2, _, hb2, ho2, hm2, .storeLeaseSet key raw, ?_, ?_⟩
  · exact NetdbRun.C141_served_partial localId netId fd rd t0 env0 before evs env1 env2 s1 key (view l raw) _ (.tunnel in2.tunnel in2.router) []
      hidle hcur hother hnow
  · obtain ⟨⟨m3, hp3, hm3⟩, -⟩ := C278_sent_partial P.sha (fun b => Nat.lt_of_lt_of_le (by decide) (hD.sha b)) E ri s3 localId hid n3 r3 h3 (.storeLeaseSet key raw) none _
      (.leaseSet key raw l hk hlen hl)
    refine ⟨m3, _, hp3, hm3, ?_⟩
    intro A q env3 hq
    show ((A.take key).storeAt env3 s3 key _ _ (A.active.get key)).log = _
    rw [hq]
    rfl

/-! ## Concrete cases -/

/-- A lease set of `Prim.LeaseSet2.sample`, signed the toy way. -/
def demoRaw : Bytes := Prim.LeaseSet2.sample.serialize (fun m => UInt8.ofNat m.length :: List.replicate 63 0)

/-- The sample lease set as it is read: with its time of expiration. -/
def demoLs : Prim.LeaseSet2 := { Prim.LeaseSet2.sample with header := { Prim.LeaseSet2.sample.header with expires := 100600 } }

theorem demo_parse : Prim.LeaseSet2.parse Prim.Env.sample demoRaw = some (demoLs, []) := by decide +kernel

/-- Values drawn for one message. -/
def demoRnd : Rnd := ⟨5, 6, 7, 8, List.replicate 32 9⟩

/-- A time: 100 000 s after the epoch. -/
def demoNow : Duration := 100000000000000

theorem demo_sane (rnd : Rnd) (h : rnd = demoRnd ∨ rnd = { demoRnd with token := 0 }) : Sane demoNow rnd := by
  rcases h with rfl | rfl <;> exact ⟨by decide, by decide, by decide, by decide⟩

theorem demo_lease : LeaseOk ⟨List.replicate 32 6, 77⟩ := ⟨by decide, by decide, by decide⟩

/-- Router infos of one byte are all read as the same router. -/
def demoRi (b : Bytes) : Option NetdbRun.RInfo := if b.length = 1 then some ⟨List.replicate 32 4, 2, 0, false, b⟩ else none

example := C278_published_partial TBuild.toyQ_lawful TBuild.toyQ_digests Prim.Env.sample demoRi none demoNow demoNow demoRnd [3] (List.replicate 32 1) demoRaw demoLs
  ⟨List.replicate 32 6, 77⟩ (demo_sane _ (.inl rfl)) (by decide) demo_lease demo_parse (by decide +kernel) (by decide) (by decide) (by decide)

example : ∃ bytes lm, storeRequest TBuild.toyQ demoNow { demoRnd with token := 0 } (TBuild.toyQ.pub [3]) (List.replicate 32 1) demoRaw ⟨List.replicate 32 6, 77⟩ = some bytes ∧
    Opens TBuild.toyQ [3] demoNow bytes lm ∧ read Prim.Env.sample demoRi none lm = none := by
  obtain ⟨b, lm, h1, h2, -, h3⟩ := C278_token_violated TBuild.toyQ_lawful TBuild.toyQ_digests Prim.Env.sample demoRi none demoNow demoNow { demoRnd with token := 0 } [3]
    (List.replicate 32 1) demoRaw ⟨List.replicate 32 6, 77⟩ (demo_sane _ (.inr rfl)) (by decide) demo_lease (by decide +kernel) rfl (by decide)
  exact ⟨b, lm, h1, h2, h3 (by decide +kernel)⟩

example := C278_lease_set_lookup TBuild.toyQ_lawful TBuild.toyQ_digests Prim.Env.sample demoRi none demoNow demoNow demoRnd [3] (List.replicate 32 1)
  ⟨List.replicate 32 6, 77⟩ (demo_sane _ (.inl rfl)) (by decide) demo_lease (by decide)

example := C278_router_lookup (fun _ => [1]) (fun _ => by decide) Prim.Env.sample demoRi none demoNow demoRnd (List.replicate 32 1)
  ⟨List.replicate 32 6, 77⟩ (demo_sane _ (.inl rfl)) (by decide) demo_lease

example := C278_sent_partial (fun _ => [1]) (fun _ => by decide) Prim.Env.sample demoRi none (List.replicate 32 2) (by decide) demoNow demoRnd (demo_sane _ (.inl rfl)) _ _ _
  (.leaseSet (List.replicate 32 1) demoRaw demoLs (by decide) (by decide +kernel) demo_parse)
example := C278_sent_partial (fun _ => [1]) (fun _ => by decide) Prim.Env.sample demoRi none (List.replicate 32 2) (by decide) demoNow demoRnd (demo_sane _ (.inl rfl)) _ _ _
  (.search (List.replicate 32 1) [List.replicate 32 5, List.replicate 32 6] (some 77) (by decide) (by decide) (by decide) (by decide))
example := C278_sent_partial (fun _ => [1]) (fun _ => by decide) Prim.Env.sample demoRi none (List.replicate 32 2) (by decide) demoNow demoRnd (demo_sane _ (.inl rfl)) _ _ _
  (.publish (List.replicate 32 1) [7] ⟨List.replicate 32 4, 2, 0, false, [7]⟩ (by decide) (by decide) rfl rfl (by decide) (by decide))
example := C278_status (fun _ => [1]) (fun _ => by decide) (List.replicate 32 2) demoNow demoRnd (demo_sane _ (.inl rfl)) 8 (some 77) (by decide) (by decide)

/-- C279 holds of a floodfill that has seen a router come and go, with time passing between the store and the lookup. -/
example := C279_found_partial TBuild.toyQ_lawful TBuild.toyQ_digests Prim.Env.sample demoRi none none none (List.replicate 32 1) demoRaw demoLs (by decide) demo_parse
  (by decide +kernel) demoNow demoNow demoRnd (demo_sane _ (.inl rfl)) ⟨List.replicate 32 6, 77⟩ demo_lease (by decide) (by decide) (by decide) [3] (List.replicate 32 2) (by decide)
  2 (Netdb.Table.new (List.replicate 32 2)) (Netdb.Table.new (List.replicate 32 2)) 100000000 (NetdbRun.toyEnv []) (NetdbRun.toyEnv []) (NetdbRun.toyEnv [])
  [(NetdbRun.toyEnv [], .connected (List.replicate 32 4))] [(NetdbRun.toyEnv [], .advance 60000), (NetdbRun.toyEnv [], .tick (List.replicate 32 8))]
  (by decide +kernel) (by decide +kernel) (by decide) demoNow demoNow demoRnd (demo_sane _ (.inl rfl)) ⟨List.replicate 32 7, 78⟩ ⟨by decide, by decide, by decide⟩ (by decide)
  demoNow demoRnd (demo_sane _ (.inl rfl))

end Emissary.NetdbWire
