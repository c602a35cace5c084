import Verif.Model.Journey
import Verif.Props.HopTask
import Verif.Props.SessionTalk
import Verif.Props.Datagram
/-!
# From one client to the other: sessions, tunnels and datagrams together
-/
namespace Emissary.Journey
open Emissary Emissary.I2np Emissary.Tunnel Emissary.Hop

/-! ## C250: through an outbound and an inbound tunnel -/

/-- An outbound tunnel as its owner sees it: the participants, the endpoint's keys, the first router and the tunnel id there, random padding. -/
structure OutTunnel where
  stops : List Stop
  last : Keys
  router : Bytes
  first : Nat
  random : Bytes

structure OutTunnel.Ok (t : OutTunnel) : Prop where
  stops : ∀ s ∈ t.stops, s.Ok
  random : t.random.length = 1028

/-- An inbound tunnel: what the gateway was told, the participants behind it, random padding of the gateway. -/
structure InTunnel where
  gate : Next
  stops : List Stop
  random : Bytes

structure InTunnel.Ok (t : InTunnel) : Prop where
  stops : ∀ s ∈ t.stops, s.Ok
  random : t.random.length = 1028

/-- The keys of the owner of an inbound tunnel. -/
def InTunnel.keys (t : InTunnel) : List Keys := t.gate.keys :: t.stops.map (·.next.keys)

/-- Sending: the time, the ids of messages, the randomness of pieces. -/
structure Sending where
  now : Duration
  ids : Nat → Nat
  rnd : Rnd

structure Sending.Ok (s : Sending) : Prop where
  now : Clock s.now
  ids : ∀ k, s.ids k < 2 ^ 32
  rnd : s.rnd.Ok

/-- The messages `sent` come out of the participants `stops` as `arrived`, each with one of the pieces `frags`. -/
def Comes (A : Aes) (stops : List Stop) (op : Message → List Block) (sent : List Out) (arrived : List Message) (frags : List Block) : Prop :=
  arrived ≠ [] ∧ sent.map (fun o => (received o).bind (carry A stops)) = arrived.map some ∧ arrived.map op = frags.map fun f => [f]

/-- The owner of `I` hands over `M` when the last of the pieces that the gateway sends for `g` has come, in whatever order they come and whatever comes besides. -/
def Handed (A : Aes) (sha : Sha) (chk : Bool) (I : InTunnel) (g : In) (M : Message) : Prop :=
  ∃ sent arrived frags, gatewayOn A sha chk I.gate (paddingBytes I.random) g = some sent ∧ (∀ o ∈ sent, o.router = I.gate.router) ∧
    Comes A I.stops (openedIn A sha I.keys) sent arrived frags ∧
    ∀ (ms : List Message) (m : Message) (b : Block), openedIn A sha I.keys m = [b] →
      Completes frags g.rnd.mid (ms.flatMap (openedIn A sha I.keys)) b →
      (ownerRun A sha I.keys (ms ++ [m])).2 = (ownerRun A sha I.keys ms).2 ++ [M]

/-- `bytes`, sent through `O` to the tunnel `tid` of the router `hash`, makes the owner of `I` hand over `M`: the endpoint of `O`, when the last piece has come
by the time `M` expires, in whatever order they come and whatever comes besides, sends one message, to `hash`; and this message, given by `hash` to the
gateway of `I` before `M` expires, leads to `M`. -/
def Crosses (A : Aes) (sha : Sha) (chk : Bool) (O : OutTunnel) (I : InTunnel) (s : Sending) (tid : Nat) (hash bytes : Bytes) (M : Message) : Prop :=
  let sent := ownerSends A sha (O.stops.map (·.next.keys) ++ [O.last]) O.router O.first (paddingBytes O.random) (.tunnel tid hash) bytes s.now s.ids s.rnd
  (∀ o ∈ sent, o.router = O.router) ∧
  ∃ arrived frags, Comes A O.stops (opened A sha O.last) sent arrived frags ∧
    ∀ (os : List Op) (t : Task) (i : In) (b : Block), Task.run A sha chk { role := .endpoint O.last } os = some t → t.over = false →
      opened A sha O.last i.m = [b] → Clock i.now → (∀ k, i.ids k < 2 ^ 32) → i.now ≤ M.expiration →
      Completes frags s.rnd.mid ((messages os).flatMap (opened A sha O.last)) b →
      ∃ t' o, t.step A sha chk (.message i) = some t' ∧ t'.sent = t.sent ++ [o] ∧ o.router = hash ∧
        ∃ g x, received o = some g ∧ g.type = .tunnelGateway ∧ TunnelGateway.parse g.payload = some (⟨tid, x⟩, []) ∧
          ∀ s' : Sending, s'.Ok → s'.now ≤ M.expiration → Handed A sha chk I ⟨g, s'.now, s'.ids, s'.rnd⟩ M

/-- **C250**, in part (messages of up to 64 pieces, see C12): a message that is sent through any outbound tunnel to any inbound tunnel comes out of it as it was
sent, however the pieces are delayed, reordered and mixed with other traffic on both tunnels, if it gets to the gateway before it expires. -/
theorem C250_crosses_partial {A : Aes} (hA : A.Lawful) (sha : Sha) (hsha : ShaOk sha) (chk : Bool) (O : OutTunnel) (hO : O.Ok) (I : InTunnel) (hI : I.Ok)
    (s : Sending) (hs : s.Ok) (tid : Nat) (htid : tid < 2 ^ 32) (hash : Bytes) (hh : hash.length = 32) (M : Message) (bytes : Bytes)
    (hM : Message.parseStandard bytes = some (M, [])) (hfit : bytes.length ≤ 63708) (hexp : M.expiration / 1000000000 < 2 ^ 32) :
    Crosses A sha chk O I s tid hash bytes M := by
  have hfit' : Fits (.tunnel tid hash) bytes := by
    have h : bytes.length ≤ 997 - 37 + 63 * 996 := by omega
    exact h
  obtain ⟨h1, arrived, frags, h2, h3, h4, h5⟩ := C235_delivered_partial hA sha hsha chk O.stops hO.stops O.last O.router O.first O.random hO.random
    (.tunnel tid hash) ⟨htid, hh⟩ (by simp) s.now hs.now s.ids hs.ids s.rnd hs.rnd M bytes hM hfit' hexp
  refine ⟨h1, arrived, frags, ⟨h2, h3, h4⟩, ?_⟩
  intro os t i b hrun hover hopen hcl hids hlive hc
  obtain ⟨t', out, e1, e2, e3, -, -⟩ := h5 os t i b hrun hover hopen hcl hids hc
  obtain ⟨o, rfl, hd⟩ := e3 hlive
  obtain ⟨g1, g, x, g2, g3, g4, g5, g6⟩ := C236_gateway_partial M tid hash o hd bytes hM hfit'
  refine ⟨t', o, e1, e2, g1, g, x, g2, g3, g4, ?_⟩
  intro s' hs' hlive'
  obtain ⟨sent, k1, k2, arr, fr, k3, k4, k5, k6⟩ := C236_inbound_partial hA sha hsha chk I.gate I.stops hI.stops I.random hI.random
    ⟨g, s'.now, s'.ids, s'.rnd⟩ hs'.now hs'.ids hs'.rnd tid x [] M g3 g4 g5 g6 hlive'
  exact ⟨sent, arr, fr, k1, k2, ⟨k3, k4, k5⟩, fun ms m b hb hc => (k6 ms m b hb hc).1⟩

/-! ## C251: from destination to destination -/

/-- The message of the destination as it comes out of the tunnels: times are in milliseconds. -/
def enclosed (now : Duration) (id : Nat) (out : Bytes) : Message :=
  { type := .garlic, id := id, expiration := (now + fromSecs 8) / 1000000 * 1000000, payload := out }

theorem clock_bounds (n : Nat) (h : Clock n) :
    (n + fromSecs 8) / 1000000 < 2 ^ 64 ∧ (n + fromSecs 8) / 1000000 * 1000000 / 1000000000 < 2 ^ 32 := by
  unfold Clock at h
  have h : (n + 8000000000) / 1000000000 < 4294967296 := h
  have e : n + fromSecs 8 = n + 8000000000 := rfl
  rw [e]
  refine ⟨?_, ?_⟩ <;> omega

theorem enclose_crosses {A : Aes} (hA : A.Lawful) (sha : Sha) (hsha : ShaOk sha) (chk : Bool) (O : OutTunnel) (hO : O.Ok) (I : InTunnel) (hI : I.Ok)
    (s : Sending) (hs : s.Ok) (tid : Nat) (htid : tid < 2 ^ 32) (hash : Bytes) (hh : hash.length = 32) (id : Nat) (hid : id < 2 ^ 32) (out : Bytes)
    (hne : out ≠ []) (hlen : out.length ≤ 63692) :
    Crosses A sha chk O I s tid hash (enclose sha s.now id out) (enclosed s.now id out) := by
  obtain ⟨c1, c2⟩ := clock_bounds s.now hs.now
  have hp := C17_standard_header_roundtrip sha (fun b => by rw [hsha]; decide) ⟨.garlic, id, s.now + fromSecs 8, out⟩ [] hid
    c1 hne (by show out.length ≤ 65535; omega)
  rw [List.append_nil] at hp
  refine C250_crosses_partial hA sha hsha chk O hO I hI s hs tid htid hash hh _ _ hp ?_ ?_
  · have := (standard_bounds hp).2.2.2.2.2
    simp only [List.length_nil] at this
    show (Message.serializeStandard sha _).length ≤ _
    rw [this]
    show out.length + 16 + 0 ≤ _
    omega
  · exact c2

theorem read_of {C : Ecies.Cfg} {v : Ecies.Draw} {n : Ecies.Mgr} {now : Duration} {id : Nat} {out : Bytes} {cs : List Ecies.Clove} {l : List Bytes}
    (h : (n.decrypt C v out).1 = .ok cs) (hl : cs.filterMap dataOf = l) (hlen : 12 < out.length) : read C v n (enclosed now id out) = some l := by
  have : ¬ out.length ≤ 12 := by omega
  simp only [read, enclosed, this, if_false, h, hl]

theorem dataOf_data (id : Nat) (e : Duration) (d : Garlic.Delivery) (msg : Bytes) (h : msg ≠ []) :
    dataOf { type := .data, id := id, expiration := e, delivery := d, body := be 4 msg.length ++ msg } = some msg := by
  have : 0 < msg.length := List.length_pos_of_ne_nil h
  simp only [dataOf, List.length_append, be_length]
  rw [if_neg (by omega), List.drop_append, be_length, Nat.sub_self, List.drop_zero, List.drop_eq_nil_of_le (by rw [be_length]; exact Nat.le_refl _)]
  rfl

theorem dataOf_store (id : Nat) (e : Duration) (d : Garlic.Delivery) (b : Bytes) :
    dataOf { type := .databaseStore, id := id, expiration := e, delivery := d, body := b } = none := rfl

/-- `msg`, which the session manager made `out` of, is sent through `O` to the lease with the tunnel `tid` at the router `hash`, comes out of `I` and is what the other
destination reads from it. -/
def Reaches (A : Aes) (sha : Sha) (chk : Bool) (O : OutTunnel) (I : InTunnel) (s : Sending) (tid : Nat) (hash : Bytes) (id : Nat) (C : Ecies.Cfg) (v : Ecies.Draw)
    (n : Ecies.Mgr) (out msg : Bytes) : Prop :=
  ∃ M, Crosses A sha chk O I s tid hash (enclose sha s.now id out) M ∧ read C v n M = some [msg]

/-- **C251**, in part (up to 64 pieces; the conditions of C119): the first message to a destination, and every further one before there is an answer, is what the
other destination reads, through any two tunnels. -/
theorem C251_first_partial {A : Aes} (hA : A.Lawful) (sha : Sha) (hsha : ShaOk sha) (chk : Bool) (O : OutTunnel) (hO : O.Ok) (I : InTunnel) (hI : I.Ok)
    (s : Sending) (hs : s.Ok) (tid : Nat) (htid : tid < 2 ^ 32) (hash : Bytes) (hh : hash.length = 32) (id : Nat) (hid : id < 2 ^ 32)
    {C : Ecies.Cfg} (hP : C.P.Lawful) {v : Ecies.Draw} {m n : Ecies.Mgr} {a b d msg out : Bytes} (v' : Ecies.Draw)
    (hm : m.ctx = Ecies.KeyCtx.new C.P a) (hn : n.ctx = Ecies.KeyCtx.new C.P b) (he : Ecies.Encodable C.P C.E v.esk) (ha : m.active.get d = none)
    (hp : (m.pending.get d = none ∧ m.remotes.get d = some (C.P.pub b)) ∨ ∃ t outs nsr es, m.pending.get d = some ⟨t, .awaitNsr outs (C.P.pub b) nsr es⟩)
    (hsz : Ecies.Sendable v m.id d m.leaseSet msg) (hrd : C.readStore (storeBuild m.id (.leaseSet2 m.leaseSet) .none) = some (m.id, m.id))
    (hne : msg ≠ []) (ho : (m.encrypt C v d msg).1 = .ok out) {tag : Nat} (ht : Garlic.garlicTag out = some tag) (hu : n.tags.map tag = none)
    (hlen : out.length ≤ 63692) : Reaches A sha chk O I s tid hash id C v' n out msg := by
  have h := Ecies.C119_first_messages_partial hP v' hm hn he ha hp hsz hrd ho ht hu
  have hl : 12 < out.length := by
    obtain ⟨pk, o, x, h1, rfl, _, h2, h3⟩ := Ecies.request_out ha (by
      rcases hp with ⟨h, _⟩ | ⟨t, outs, nsr, es, h⟩
      · exact .inr h
      · exact .inl ⟨ha, t, outs, _, nsr, es, h⟩) ho
    obtain ⟨plain, _, h4, _⟩ := Ecies.openSession_spec (C := C) (a := a) (pk := pk) hsz
    rw [hm, h4] at h1
    have hx : x = (Ecies.specRequest C.P C.E a v.esk pk plain).2 := by
      have := Ecies.C114_request_spec C.P C.E a v.esk pk plain
      simp only at this
      rw [this] at h1
      cases h1; rfl
    subst hx
    simp only [Ecies.prefixed, Ecies.specRequest, List.length_append, be_length, he.1]
    omega
  refine ⟨_, enclose_crosses hA sha hsha chk O hO I hI s hs tid htid hash hh id hid out (by intro h0; rw [h0] at hl; simp at hl) hlen, read_of h ?_ hl⟩
  simp only [Ecies.requestCloves, List.filterMap_cons, List.filterMap_nil, dataOf_data _ _ _ _ hne]
  rfl

/-- **C251**, in part: the same in a session, for every message until a ratchet is due, with whatever else the message carries. -/
theorem C251_session_partial {A : Aes} (hA : A.Lawful) (sha : Sha) (hsha : ShaOk sha) (chk : Bool) (O : OutTunnel) (hO : O.Ok) (I : InTunnel) (hI : I.Ok)
    (s : Sending) (hs : s.Ok) (tid : Nat) (htid : tid < 2 ^ 32) (hash : Bytes) (hh : hash.length = 32) (id : Nat) (hid : id < 2 ^ 32)
    {C : Ecies.Cfg} (hP : C.P.Lawful) {m n : Ecies.Mgr} {idm idn : Bytes} {c : Ratchet.Chain} {k i : Nat} {a : Ecies.Active} {w : Ecies.Window}
    (hsd : Ecies.Sending C m idn c k i a) (hi : i < Ratchet.ratchetThreshold) (hw : Ecies.Watching C n idm c k w) (hd : Ecies.Distinct C.P c) (hr : w.readable i)
    (v v' : Ecies.Draw) (msg : Bytes) (hne : msg ≠ []) (hok : ∀ b ∈ Ecies.dataFor v idn msg :: Ecies.extras v m.id a, b.Ok) :
    ∃ out m', m.encrypt C v idn msg = (.ok out, m') ∧
      (out.length ≤ 63692 → Reaches A sha chk O I s tid hash id C v' n out msg) := by
  obtain ⟨out, a', m', e1, hg, -⟩ := Ecies.C115_sent_partial hsd hi v msg hok
  refine ⟨out, m', e1, fun hlen => ?_⟩
  obtain ⟨n', e2, -⟩ := Ecies.C115_readable_partial hP hw hd hr v' hg
  have hl : 12 < out.length := by
    obtain ⟨plain, -, -, rfl⟩ := hg
    have h8 : ∀ x, (Ntcp2.le 8 x).length = 8 := fun x => by simp [Ntcp2.le]
    simp only [Ecies.prefixed, Ecies.Entry.seal, Ssu2.Crypto.seal, List.length_append, be_length, h8, hP.crypto.aead.len]
    omega
  refine ⟨_, enclose_crosses hA sha hsha chk O hO I hI s hs tid htid hash hh id hid out (by intro h0; rw [h0] at hl; simp at hl) hlen,
    read_of (by rw [e2]) ?_ hl⟩
  simp only [Ecies.extras, Ecies.dataFor]
  cases a.leaseSet <;> (by_cases hk : a.inAcks = [] <;>
    simp [hk, Ecies.clovesOf, Garlic.Block.onWire, List.filterMap_cons, dataOf_data _ _ _ _ hne, dataOf_store])

/-! ## C252: datagrams from client to client -/

/-- The session of a client that sends datagrams, and its key. -/
structure Client (E : Prim.Env) (m : Datagram.Mgr) (key padding : Bytes) : Prop where
  keyLen : key.length = 32
  padLen : padding.length = 352
  valid : E.keyOk (.ed25519 key) = true
  dest : m.dest = Prim.Destination.new E key padding
  sign : ∀ x, (m.sign x).length = 64

/-- What the other client is sent for `data`. -/
def toClient (b64 : Bytes → Bytes) (m : Datagram.Mgr) (data : Bytes) : Bytes :=
  match m.kind with
  | .datagram => b64 m.dest.serialized ++ Datagram.ascii " FROM_PORT=0 TO_PORT=0\n" ++ data
  | _ => data

/-- The other client gets `data` at its port for what comes through the tunnels, and nothing else. -/
def Gets (A : Aes) (sha : Sha) (chk : Bool) (O : OutTunnel) (I : InTunnel) (s : Sending) (tid : Nat) (hash : Bytes) (id : Nat) (C : Ecies.Cfg) (v : Ecies.Draw)
    (n : Ecies.Mgr) (out : Bytes) (E : Prim.Env) (G : Datagram.Gzip) (b64 : Bytes → Bytes) (dB : Datagram.Mgr) (port : Nat) (data : Bytes) : Prop :=
  ∃ M, Crosses A sha chk O I s tid hash (enclose sha s.now id out) M ∧
    (read C v n M).map (List.map (dB.receive E G b64 true)) = some [some (.inr (.client port data))]

theorem send_ne {G : Datagram.Gzip} (hG : G.Ok) {m : Datagram.Mgr} {data message : Bytes} (h : m.send G data = some message) : message ≠ [] := by
  unfold Datagram.Mgr.send at h
  unbind h with x e1
  obtain ⟨h1, _⟩ := Datagram.C178_roundtrip G hG 0 0 (by omega) (by omega) _ x message h
  rintro rfl
  rw [((Datagram.C178_refused G []).1 (by simp)).1] at h1
  cases h1

theorem gets_of {A : Aes} {sha : Sha} {chk : Bool} {O : OutTunnel} {I : InTunnel} {s : Sending} {tid : Nat} {hash : Bytes} {id : Nat} {C : Ecies.Cfg} {v : Ecies.Draw}
    {n : Ecies.Mgr} {out : Bytes} {E : Prim.Env} {G : Datagram.Gzip} (hG : G.Ok) (b64 : Bytes → Bytes) {dA dB : Datagram.Mgr} {key padding : Bytes} (hc : Client E dA key padding)
    {data message : Bytes} (hm : dA.send G data = some message) {port : Bytes} {p : Nat} (hport : dB.port = some port) (hn : Prim.parseUInt 65535 port = some p)
    (h : Reaches A sha chk O I s tid hash id C v n out message) : Gets A sha chk O I s tid hash id C v n out E G b64 dB p (toClient b64 dA data) := by
  obtain ⟨M, h1, h2⟩ := h
  refine ⟨M, h1, ?_⟩
  rw [h2]
  have := Datagram.C177_delivered_partial E G hG b64 dA dB key padding hc.keyLen hc.padLen hc.valid hc.dest hc.sign data message hm port p hport hn
  simp only [Option.map_some, List.map_cons, List.map_nil, this]
  rfl

/-- **C252**, in part (the conditions of C251 and of C177): the first datagrams of a client to another one, before there is an answer, come to its port as they were sent. -/
theorem C252_first_partial {A : Aes} (hA : A.Lawful) (sha : Sha) (hsha : ShaOk sha) (chk : Bool) (O : OutTunnel) (hO : O.Ok) (I : InTunnel) (hI : I.Ok)
    (s : Sending) (hs : s.Ok) (tid : Nat) (htid : tid < 2 ^ 32) (hash : Bytes) (hh : hash.length = 32) (id : Nat) (hid : id < 2 ^ 32)
    {C : Ecies.Cfg} (hP : C.P.Lawful) {v : Ecies.Draw} {m n : Ecies.Mgr} {a b d message out : Bytes} (v' : Ecies.Draw)
    (hm : m.ctx = Ecies.KeyCtx.new C.P a) (hn : n.ctx = Ecies.KeyCtx.new C.P b) (he : Ecies.Encodable C.P C.E v.esk) (ha : m.active.get d = none)
    (hp : (m.pending.get d = none ∧ m.remotes.get d = some (C.P.pub b)) ∨ ∃ t outs nsr es, m.pending.get d = some ⟨t, .awaitNsr outs (C.P.pub b) nsr es⟩)
    (hsz : Ecies.Sendable v m.id d m.leaseSet message) (hrd : C.readStore (storeBuild m.id (.leaseSet2 m.leaseSet) .none) = some (m.id, m.id))
    (ho : (m.encrypt C v d message).1 = .ok out) {tag : Nat} (ht : Garlic.garlicTag out = some tag) (hu : n.tags.map tag = none)
    (hlen : out.length ≤ 63692)
    {E : Prim.Env} {G : Datagram.Gzip} (hG : G.Ok) (b64 : Bytes → Bytes) {dA dB : Datagram.Mgr} {key padding : Bytes} (hc : Client E dA key padding)
    (data : Bytes) (hsend : dA.send G data = some message) {port : Bytes} {p : Nat} (hport : dB.port = some port) (hpn : Prim.parseUInt 65535 port = some p) :
    Gets A sha chk O I s tid hash id C v' n out E G b64 dB p (toClient b64 dA data) :=
  gets_of hG b64 hc hsend hport hpn
    (C251_first_partial hA sha hsha chk O hO I hI s hs tid htid hash hh id hid hP v' hm hn he ha hp hsz hrd (send_ne hG hsend) ho ht hu hlen)

/-- **C252**, in part: the same in a session. -/
theorem C252_session_partial {A : Aes} (hA : A.Lawful) (sha : Sha) (hsha : ShaOk sha) (chk : Bool) (O : OutTunnel) (hO : O.Ok) (I : InTunnel) (hI : I.Ok)
    (s : Sending) (hs : s.Ok) (tid : Nat) (htid : tid < 2 ^ 32) (hash : Bytes) (hh : hash.length = 32) (id : Nat) (hid : id < 2 ^ 32)
    {C : Ecies.Cfg} (hP : C.P.Lawful) {m n : Ecies.Mgr} {idm idn : Bytes} {c : Ratchet.Chain} {k i : Nat} {a : Ecies.Active} {w : Ecies.Window}
    (hsd : Ecies.Sending C m idn c k i a) (hi : i < Ratchet.ratchetThreshold) (hw : Ecies.Watching C n idm c k w) (hd : Ecies.Distinct C.P c) (hr : w.readable i)
    (v v' : Ecies.Draw) (message : Bytes) (hok : ∀ b ∈ Ecies.dataFor v idn message :: Ecies.extras v m.id a, b.Ok)
    {E : Prim.Env} {G : Datagram.Gzip} (hG : G.Ok) (b64 : Bytes → Bytes) {dA dB : Datagram.Mgr} {key padding : Bytes} (hc : Client E dA key padding)
    (data : Bytes) (hsend : dA.send G data = some message) {port : Bytes} {p : Nat} (hport : dB.port = some port) (hpn : Prim.parseUInt 65535 port = some p) :
    ∃ out m', m.encrypt C v idn message = (.ok out, m') ∧
      (out.length ≤ 63692 → Gets A sha chk O I s tid hash id C v' n out E G b64 dB p (toClient b64 dA data)) := by
  obtain ⟨out, m', h1, h2⟩ := C251_session_partial hA sha hsha chk O hO I hI s hs tid htid hash hh id hid hP hsd hi hw hd hr v v' message (send_ne hG hsend) hok
  exact ⟨out, m', h1, fun hl => gets_of hG b64 hc hsend hport hpn (h2 hl)⟩

end Emissary.Journey
