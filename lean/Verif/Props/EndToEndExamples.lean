import Verif.Props.EndToEnd
import Verif.Props.DatagramExamples
/-!
# Examples for messages from one client to the other
-/
namespace Emissary.Journey
open Emissary Emissary.I2np Emissary.Tunnel Emissary.Hop

def toyOut : OutTunnel := ⟨[toyStop, toyStop], ⟨[3], [4]⟩, [8], 6, toyRandom⟩
theorem toyOut_ok : toyOut.Ok := ⟨by intro s hs; simp [toyOut] at hs; exact hs ▸ toyStop_ok, toyRandom_length⟩
def toyIn : InTunnel := ⟨toyNext, [toyStop], toyRandom⟩
theorem toyIn_ok : toyIn.Ok := ⟨by intro s hs; simp [toyIn] at hs; exact hs ▸ toyStop_ok, toyRandom_length⟩
def toySend : Sending := ⟨fromSecs 1, fun k => k % 100, toyRnd⟩
theorem toySend_ok : toySend.Ok := ⟨by unfold Clock; decide, fun k => by show k % 100 < _; omega, toyRnd_ok⟩
def toyHash : Bytes := List.replicate 32 1

example := C250_crosses_partial toyAes_lawful toySha toySha_ok true toyOut toyOut_ok toyIn toyIn_ok toySend toySend_ok 5 (by decide) toyHash (by decide) toyData toyBytes
  toyBytes_parse (by have : toyBytes.length = 28 := by decide +kernel
                     omega) (by decide)

/-- All pieces come in order, and nothing else: what the owner of the inbound tunnel hands over. -/
def alone (bytes : Bytes) : Option (List Message) := do
  let a := (ownerSends toyAes toySha (toyOut.stops.map (·.next.keys) ++ [toyOut.last]) toyOut.router toyOut.first (paddingBytes toyOut.random) (.tunnel 5 toyHash) bytes
    toySend.now toySend.ids toySend.rnd).filterMap fun o => (received o).bind (carry toyAes toyOut.stops)
  let t ← Task.run toyAes toySha false { role := .endpoint toyOut.last } (a.map fun m => .message ⟨m, fromSecs 2, toySend.ids, toyRnd⟩)
  let g ← (t.sent.map received)[0]?.join
  let sent ← gatewayOn toyAes toySha true toyIn.gate (paddingBytes toyIn.random) ⟨g, fromSecs 2, toySend.ids, toyRnd⟩
  return (ownerRun toyAes toySha toyIn.keys (sent.filterMap fun o => (received o).bind (carry toyAes toyIn.stops))).2

example : alone toyBytes = some [toyData] := by decide +kernel

/-- What the session manager makes of a message. -/
def sealed (m : Ecies.Mgr) (C : Ecies.Cfg) (v : Ecies.Draw) (d msg : Bytes) : Bytes :=
  match (m.encrypt C v d msg).1 with
  | .ok out => out
  | _ => []

def gram : Bytes := ((Datagram.alice.send Datagram.toyGzip [5, 6]).getD [])
theorem gram_sent : Datagram.alice.send Datagram.toyGzip [5, 6] = some gram := rfl
def gramOut : Bytes := sealed Ecies.asker Ecies.storeCfg Ecies.askDraw Ecies.idB gram
theorem gramOut_eq : (Ecies.asker.encrypt Ecies.storeCfg Ecies.askDraw Ecies.idB gram).1 = .ok gramOut := by decide +kernel
theorem gramOut_len : gramOut.length ≤ 63692 := by decide +kernel

theorem aliceClient : Client Prim.Env.sample Datagram.alice Datagram.toyKey Datagram.toyPad :=
  ⟨by decide, by decide +kernel, by decide +kernel, rfl, fun _ => List.length_replicate⟩

/-- The first datagram from one sample client to the other. -/
example := C252_first_partial toyAes_lawful toySha toySha_ok true toyOut toyOut_ok toyIn toyIn_ok toySend toySend_ok 5 (by decide) toyHash (by decide) 77 (by decide)
  (C := Ecies.storeCfg) Ecies.samplePrims_lawful (v := Ecies.askDraw) (m := Ecies.asker) (n := Ecies.Mgr.new Ecies.storeCfg Ecies.idB [3] [4]) (a := [2]) (b := [3]) (d := Ecies.idB)
  Ecies.askDraw rfl rfl ⟨by decide, by decide⟩ (by decide +kernel) (.inl ⟨by decide +kernel, by decide +kernel⟩)
  ⟨by decide, by decide, by decide, by decide, by decide +kernel⟩ rfl gramOut_eq (tag := (Garlic.garlicTag gramOut).getD 0) (by decide +kernel) (by decide +kernel)
  gramOut_len Datagram.toyGzip_ok (fun _ => Datagram.ascii "AAAA") aliceClient [5, 6] gram_sent (dB := Datagram.bob) (port := Datagram.ascii "7655") (p := 7655) rfl
  (by decide +kernel)

/-- The whole way of this datagram. -/
example : ((alone (enclose toySha toySend.now 77 gramOut)).map fun l => l.map fun M =>
    (read Ecies.storeCfg Ecies.askDraw (Ecies.Mgr.new Ecies.storeCfg Ecies.idB [3] [4]) M).map
      (List.map (Datagram.bob.receive Prim.Env.sample Datagram.toyGzip (fun _ => Datagram.ascii "AAAA") true))) =
    some [some [some (.inr (.client 7655 (Datagram.ascii "AAAA FROM_PORT=0 TO_PORT=0\n" ++ [5, 6])))]] := by decide +kernel

/-- A datagram in a sample session. -/
example (v : Ecies.Draw) (hv : v.ids 0 < 2 ^ 32) (he : (v.epoch + 8 * 1000000000) / 1000000000 < 2 ^ 32) : ∃ out m',
    Ecies.sampleSender.encrypt Ecies.sampleCfg v Ecies.idB gram = (.ok out, m') ∧
    (out.length ≤ 63692 → Gets toyAes toySha true toyOut toyIn toySend 5 toyHash 77 Ecies.sampleCfg v (Ecies.sampleMgr Ecies.sampleCfg) out Prim.Env.sample Datagram.toyGzip
      (fun _ => Datagram.ascii "AAAA") Datagram.bob 7655 (toClient (fun _ => Datagram.ascii "AAAA") Datagram.alice [5, 6])) := by
  obtain ⟨a, h1, h2, h3⟩ := Ecies.sample_sending
  refine C252_session_partial toyAes_lawful toySha toySha_ok true toyOut toyOut_ok toyIn toyIn_ok toySend toySend_ok 5 (by decide) toyHash (by decide) 77 (by decide)
    Ecies.countPrims_lawful h1 (by decide) Ecies.sample_watching Ecies.sampleChain_distinct ⟨by decide, by simp⟩ v v gram ?_ Datagram.toyGzip_ok _ aliceClient [5, 6] gram_sent
    (port := Datagram.ascii "7655") rfl (by decide +kernel)
  intro b hb
  simp only [Ecies.extras, h2, h3, if_true, List.append_nil, List.mem_cons, List.not_mem_nil, or_false] at hb
  subst hb
  exact ⟨hv, he, rfl, by decide +kernel⟩

end Emissary.Journey
