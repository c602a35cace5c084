import Verif.Props.EndToEnd
import Verif.Props.SessionOpen
import Verif.Props.StreamHandshake
/-!
# A stream opens across the network (C291)
-/
namespace Emissary.Journey
open Emissary Emissary.I2np Emissary.Tunnel Emissary.Hop

/-! ## Specification -/

/-- The way from one destination to the other: an outbound tunnel, an inbound tunnel, time and randomness of the sender, the lease (tunnel and router) and the id of
the message. -/
structure Road where
  out : OutTunnel
  inb : InTunnel
  send : Sending
  tunnel : Nat
  router : Bytes
  id : Nat

structure Road.Ok (r : Road) : Prop where
  out : r.out.Ok
  inb : r.inb.Ok
  send : r.send.Ok
  tunnel : r.tunnel < 2 ^ 32
  router : r.router.length = 32
  id : r.id < 2 ^ 32

/-- What the tunnels do: keys of all hops, checks on or off. -/
structure Net where
  A : Aes
  sha : Sha
  chk : Bool

structure Net.Ok (N : Net) : Prop where
  aes : N.A.Lawful
  sha : ShaOk N.sha

/-- `out` of the session manager crosses the tunnels, and the session of the other client (session manager `n`) hands exactly the packet `p`, with the ports, to its
stream manager. -/
def Carries (N : Net) (r : Road) (C : Ecies.Cfg) (v : Ecies.Draw) (n : Ecies.Mgr) (out : Bytes) (E : Prim.Env) (G : Datagram.Gzip) (b64 : Bytes → Bytes) (room : Bool)
    (d : Datagram.Mgr) (ports : Nat × Nat) (p : Bytes) : Prop :=
  ∃ M, Crosses N.A N.sha N.chk r.out r.inb r.send r.tunnel r.router (enclose N.sha r.send.now r.id out) M ∧
    (read C v n M).map (List.map (d.receive E G b64 room)) = some [some (.inl ⟨ports.2, p, .streaming, ports.1⟩)]

/-! ## C291 -/

theorem build_ne {G : Datagram.Gzip} (hG : G.Ok) {src dst : Nat} (hs : src < 65536) (hd : dst < 65536) {k : Datagram.Protocol} {p message : Bytes}
    (h : Datagram.build G src dst k p = some message) : message ≠ [] := by
  obtain ⟨h1, _⟩ := Datagram.C178_roundtrip G hG src dst hs hd k p message h
  rintro rfl
  rw [((Datagram.C178_refused G []).1 (by simp)).1] at h1
  cases h1

theorem carries_of {N : Net} {r : Road} {C : Ecies.Cfg} {v : Ecies.Draw} {n : Ecies.Mgr} {out : Bytes} (E : Prim.Env) {G : Datagram.Gzip} (hG : G.Ok) (b64 : Bytes → Bytes)
    (room : Bool) (d : Datagram.Mgr) {ports : Nat × Nat} (hp : ports.1 < 65536 ∧ ports.2 < 65536) {p message : Bytes}
    (hb : Datagram.build G ports.1 ports.2 .streaming p = some message)
    (h : Reaches N.A N.sha N.chk r.out r.inb r.send r.tunnel r.router r.id C v n out message) : Carries N r C v n out E G b64 room d ports p := by
  obtain ⟨M, h1, h2⟩ := h
  refine ⟨M, h1, ?_⟩
  rw [h2]
  obtain ⟨h3, _⟩ := Datagram.C178_roundtrip G hG _ _ hp.1 hp.2 _ _ _ hb
  simp only [Option.map_some, List.map_cons, List.map_nil, Datagram.Mgr.receive, h3, if_true]

theorem reaches_of {N : Net} (hN : N.Ok) {r : Road} (hr : r.Ok) {C : Ecies.Cfg} {v : Ecies.Draw} {n n' : Ecies.Mgr} {out msg : Bytes} {cs : List Ecies.Clove}
    (h : n.decrypt C v out = (.ok cs, n')) (hl : cs.filterMap dataOf = [msg]) (h12 : 12 < out.length) (hlen : out.length ≤ 63692) :
    Reaches N.A N.sha N.chk r.out r.inb r.send r.tunnel r.router r.id C v n out msg :=
  ⟨_, enclose_crosses hN.aes N.sha hN.sha N.chk r.out hr.out r.inb hr.inb r.send hr.send r.tunnel hr.tunnel r.router hr.router r.id hr.id out
    (by intro h0; rw [h0] at h12; simp at h12) hlen, read_of (by rw [h]) hl h12⟩

/-- **C291**, in part (the conditions of C119, C250, C65): two clients on two routers that know nothing of each other, apart from the lease set of the one that is called.
The stream of the first one opens, and so does the one of the other: the SYN, put into a request for a session, crosses the tunnels in one direction; the listener gets
the stream, for the destination that called; the SYN-ACK, in the reply to the request, crosses the tunnels in the other direction, and opens the stream for the
destination that was called. The next packet establishes the session, and both sides send with what the other side watches for. -/
theorem C291_opens_partial {N : Net} (hN : N.Ok) {there back again : Road} (ht : there.Ok) (hbk : back.Ok) (hag : again.Ok)
    -- the sessions of the two destinations
    {C : Ecies.Cfg} (hP : C.P.Lawful) (hT : C.T.recv ≤ 65535 ∧ 0 < C.T.recv) (hT' : C.T.nsr ≤ 65535 ∧ 0 < C.T.nsr) {s : Ecies.Ends} {m n : Ecies.Mgr} (hst : Ecies.Strangers C s m n)
    -- the clients
    {E : Prim.Env} {G : Datagram.Gzip} (hG : G.Ok) (b64 : Bytes → Bytes) (dA dB : Datagram.Mgr) (ownA ownB : Mgr.Owner E) (hA : s.own = ownA.dest.hash) (hB : s.remote = ownB.dest.hash)
    (room : Bool) {ports ports' : Nat × Nat} (hp : ports.1 < 65536 ∧ ports.2 < 65536) (hp' : ports'.1 < 65536 ∧ ports'.2 < 65536)
    -- their streams
    {sA sB : Mgr.Mgr} (hsA : sA.destination = ownA.dest) (hsB : sB.destination = ownB.dest) {id rnd rnd' : Nat} (hid : id < 2 ^ 32) (hrnd : rnd < 2 ^ 32)
    (hfreeA : sA.active id = none ∧ sA.pendOut id = none ∧ sA.active rnd = none ∧ sA.pendIn rnd = none) (hrunA : sA.shut ≠ .requested)
    (hfreeB : sB.active id = none ∧ sB.pendIn id = none ∧ sB.pendOut 0 = none) (hrunB : sB.shut ≠ .requested)
    -- the packets and the messages they are sent in
    {p1 p2 p3 : Bytes} (h1 : (Mgr.syn ownA.dest ownB.dest.hash id).buildAndSign ownA.sign = some p1) (h2 : (Mgr.synAck ownB.dest id rnd).buildAndSign ownB.sign = some p2)
    {x y z : Ecies.Draw × Bytes} (hx : Datagram.build G ports.1 ports.2 .streaming p1 = some x.2) (hy : Datagram.build G ports'.1 ports'.2 .streaming p2 = some y.2)
    (hz : Datagram.build G ports.1 ports.2 .streaming p3 = some z.2)
    (hxs : Ecies.Sendable x.1 s.own s.remote s.leaseSet x.2) (hxe : Ecies.Encodable C.P C.E x.1.esk) (hys : Ecies.Fits s.own y) (hye : Ecies.Encodable C.P C.E y.1.esk)
    (hzs : Ecies.Fits s.remote z)
    -- no two tags are equal
    (hu : n.tags.map (Ntcp2.unle ((C.E.encode x.1.esk).take 8)) = none)
    (hm : Ecies.Apart C.P [s.replyChain C x, s.back C x 0 y] ∧ Ecies.Unused C.P m [s.back C x 0 y])
    (hn : Ecies.Distinct C.P (s.there C x 0 y) ∧ Ecies.Unused C.P n [s.there C x 0 y]) (v1 v2 v3 : Ecies.Draw) :
    (sA.step E (.create ownB.dest.hash id)).2 = [.send ownB.dest.hash (Mgr.syn ownA.dest ownB.dest.hash id)] ∧
    ∃ request m1, m.encrypt C x.1 s.remote x.2 = (.ok request, m1) ∧
      (request.length ≤ 63692 → Carries N there C v1 n request E G b64 room dB ports p1) ∧
    (sB.run E [.packet p1 room false rnd, .accept id]).2 =
      [.send ownA.dest.hash (Mgr.synAck ownB.dest id rnd), .opened ownA.dest.hash true sB.nextUid id] ∧
    ∃ n1 reply n2, (n.decrypt C v1 request).2 = n1 ∧ n1.encrypt C y.1 s.own y.2 = (.ok reply, n2) ∧
      (reply.length ≤ 63692 → Carries N back C v2 m1 reply E G b64 room dA ports' p2) ∧
    ((sA.step E (.create ownB.dest.hash id)).1.step E (.packet p2 room false rnd')).2 = [.opened ownB.dest.hash false sA.nextUid rnd] ∧
    ∃ m2 first m3 n3, (m1.decrypt C v2 reply).2 = m2 ∧ m2.encrypt C z.1 s.remote z.2 = (.ok first, m3) ∧ (n2.decrypt C v3 first).2 = n3 ∧
      (first.length ≤ 63692 → Carries N again C v3 n2 first E G b64 room dB ports p3) ∧
    ∃ a b, Ecies.Sending C m3 s.remote (s.there C x 0 y) 0 1 a ∧ Ecies.Watching C n3 s.own (s.there C x 0 y) 0 { n := C.T.recv, found := [0] } ∧
      Ecies.Sending C n3 s.own (s.back C x 0 y) 0 0 b ∧ Ecies.Watching C m3 s.remote (s.back C x 0 y) 0 { n := C.T.recv, found := [] } := by
  obtain ⟨outs, m1, e1, request, n1, e2, e3, replies, n2, e4, reply, m2, e5, e6, first, m3, e7, n3, e8, a3, b3, k1, k2, k3, k4, k5, k6, k7, k8, k9, k10, l1, l2, l3⟩ :=
    Ecies.C119_established_partial hP hT'.1 hT.1 hT.2 hst (xs := [x]) (ys := [y]) (by simpa using ⟨hxs, hxe⟩) (by simpa using ⟨hys, hye⟩) (by simp) (q := 0) (j := 0) rfl rfl hT'.2
      hzs hu (by simpa using hm) (by simpa [Ecies.Apart] using hn) v1 v2 v3
  have q1 : m.encrypt C x.1 s.remote x.2 = (.ok request, m1) := by
    simp only [Ecies.sendOuts] at e1
    split at e1
    · simp only [Option.map_some, Option.some.injEq, Prod.mk.injEq] at e1
      obtain ⟨rfl, rfl⟩ := e1
      cases e2
      assumption
    · cases e1
  have q2 : n1.encrypt C y.1 s.own y.2 = (.ok reply, n2) := by
    simp only [Ecies.sendOuts] at e4
    split at e4
    · simp only [Option.map_some, Option.some.injEq, Prod.mk.injEq] at e4
      obtain ⟨rfl, rfl⟩ := e4
      cases e5
      assumption
    · cases e4
  have hc := Mgr.C65_syn_waits_for_listener E ownA sB (by rw [hsB]; exact ownB.hash) id hid hfreeB.1 hfreeB.2.1 hfreeB.2.2 hrunB room rnd
  obtain ⟨o, w1, w2⟩ := hc
  rw [hsB, h1] at w1
  cases w1
  rw [hsB] at w2
  have hcr : sA.step E (.create ownB.dest.hash id) = ({ sA with pendOut := Mgr.upd sA.pendOut id (some { dest := ownB.dest.hash, numSent := 1 })
                                                                destStreams := Mgr.upd sA.destStreams ownB.dest.hash (id :: sA.destStreams ownB.dest.hash) },
      [.send ownB.dest.hash (Mgr.syn ownA.dest ownB.dest.hash id)]) := by
    simp only [Mgr.Mgr.step, Mgr.Mgr.createStream, hfreeA.1, hfreeA.2.1, Option.isNone_none, and_self, if_true, hsA]
  obtain ⟨o', w3, w4, _⟩ := Mgr.C65_syn_ack_completes E ownB (sA.step E (.create ownB.dest.hash id)).1 id rnd hid hrnd { dest := ownB.dest.hash, numSent := 1 }
    (by rw [hcr]; simp [Mgr.upd]) (by rw [hcr]; exact hfreeA.2.2.1) (by rw [hcr]; exact hfreeA.2.2.2) (by rw [hcr]; exact hrunA) room false rnd'
  rw [h2] at w3
  cases w3
  refine ⟨by rw [hcr], request, m1, q1, fun hl => carries_of E hG b64 room dB hp hx (reaches_of hN ht e3 ?_ l1 hl), w2, n1, reply, n2, by rw [e3], q2,
    fun hl => carries_of E hG b64 room dA hp' hy (reaches_of hN hbk e6 ?_ l2 hl), by rw [w4, hcr], m2, first, m3, n3, by rw [e6], e7, by rw [e8],
    fun hl => carries_of E hG b64 room dB hp hz (reaches_of hN hag e8 ?_ l3 hl), a3, b3, k1, k2, k3, k4⟩
  · simp only [Ecies.requestCloves, List.filterMap_cons, List.filterMap_nil, dataOf_data _ _ _ _ (build_ne hG hp.1 hp.2 hx)]
    rfl
  · simp only [Ecies.received, List.filterMap_cons, List.filterMap_nil, dataOf_data _ _ _ _ (build_ne hG hp'.1 hp'.2 hy)]
  · simp only [Ecies.received, List.filterMap_cons, List.filterMap_nil, dataOf_data _ _ _ _ (build_ne hG hp.1 hp.2 hz)]

/-- **C291**, in part: every further packet of either side, until a ratchet is due, crosses the tunnels to the stream manager of the other client. -/
theorem C291_packets_partial {N : Net} (hN : N.Ok) {r : Road} (hr : r.Ok) {C : Ecies.Cfg} (hP : C.P.Lawful) {m n : Ecies.Mgr} {idm idn : Bytes} {c : Ratchet.Chain} {k i : Nat}
    {a : Ecies.Active} {w : Ecies.Window} (hsd : Ecies.Sending C m idn c k i a) (hi : i < Ratchet.ratchetThreshold) (hw : Ecies.Watching C n idm c k w)
    (hd : Ecies.Distinct C.P c) (hread : w.readable i) (v v' : Ecies.Draw) {E : Prim.Env} {G : Datagram.Gzip} (hG : G.Ok) (b64 : Bytes → Bytes) (room : Bool) (d : Datagram.Mgr)
    {ports : Nat × Nat} (hp : ports.1 < 65536 ∧ ports.2 < 65536) {p message : Bytes} (hb : Datagram.build G ports.1 ports.2 .streaming p = some message)
    (hok : ∀ b ∈ Ecies.dataFor v idn message :: Ecies.extras v m.id a, b.Ok) :
    ∃ out m', m.encrypt C v idn message = (.ok out, m') ∧ (out.length ≤ 63692 → Carries N r C v' n out E G b64 room d ports p) := by
  obtain ⟨out, m', h1, h2⟩ := C251_session_partial hN.aes N.sha hN.sha N.chk r.out hr.out r.inb hr.inb r.send hr.send r.tunnel hr.tunnel r.router hr.router r.id hr.id hP hsd hi hw hd
    hread v v' message (build_ne hG hp.1 hp.2 hb) hok
  exact ⟨out, m', h1, fun hl => carries_of E hG b64 room d hp hb (h2 hl)⟩

end Emissary.Journey
