import Verif.Props.I2cpMessage
import Verif.Props.TunnelTest
import Verif.Props.Ssu2Interop
import Verif.Props.Stream
import Verif.Props.NetdbWire
import Verif.Props.GarlicInterop
import Verif.Props.StreamTask
/-!
# Details that the theorems of other files leave open (C03, C182, C276, C278, C279, C280, C282, C289)
-/

namespace Emissary.I2cpMessage
open Emissary.Prim (Env Mapping Str)

/-- C182: a client that asks for the date is understood with its version and all its options. -/
theorem C182_get_date (E : Env) (chk : Bool) (version raw : Bytes) (options : List Mapping) (hl : version.length ≤ 255) (hu : E.utf8 version = true)
    (ho : Mapping.parseMulti E raw = some (options, [])) : parse E chk 32 (be 1 version.length ++ version ++ raw) = .ok (.getDate version options) := by
  have h := Prim.C24_string_roundtrip E version raw hl hu
  have e : be 1 version.length ++ version ++ raw = Str.serialize version ++ raw := by
    simp only [Str.serialize]
  have p : parse E chk 32 (Str.serialize version ++ raw) = empty chk (getDate E (Str.serialize version ++ raw)) := by simp [parse]
  rw [e, p]
  simp only [getDate, h, bind_some_pair, ho]
  simp [empty]

/-- C182: the date, in eight bytes of milliseconds, and the version. -/
theorem C182_set_date (E : Env) (chk : Bool) (date : Nat) (version : Bytes) (hd : date < 2 ^ 64) (hl : version.length ≤ 255) (hu : E.utf8 version = true) :
    parse E chk 33 (be 8 date ++ (be 1 version.length ++ version)) = .ok (.setDate date version) := by
  have h := Prim.C24_string_roundtrip E version [] hl hu
  have e : be 1 version.length ++ version = Str.serialize version ++ [] := by
    simp only [Str.serialize, List.append_nil]
  have p : ∀ x, parse E chk 33 x = empty chk (setDate E x) := by intro x; simp [parse]
  rw [e, p]
  simp only [setDate, beU_be, bind_some_pair, h]
  rw [Nat.mod_eq_of_lt (show date < 256 ^ 8 from hd)]
  simp [empty]

example := C182_set_date Env.sample true 1700000000000 [48, 46, 57] (by decide) (by decide) (by decide)
example : (Mapping.parseMulti Env.sample (be 2 6 ++ (be 1 1 ++ [97] ++ [61] ++ be 1 1 ++ [98] ++ [59]))).any (fun x => !x.1.isEmpty && x.2.isEmpty) = true := by decide +kernel

end Emissary.I2cpMessage

namespace Emissary.TunnelTest

/-- C289: maintenance starts tests when fifteen seconds have gone by since the last ones, and not before. -/
theorem C289_interval (s : Pool.State) (i : Pool.Input) :
    (i.now < s.lastTest + 15000 → (s.maintain i).tests = s.tests ∧ (s.maintain i).lastTest = s.lastTest) ∧
    (s.lastTest + 15000 ≤ i.now → (s.maintain i).lastTest = i.now ∧
      ∀ t, t ∈ (s.maintain i).tests ↔ t ∈ s.tests ∨ ∃ k : Nat, (i.outOrder.filter fun id => id ∈ s.outbound && id ∉ s.expiringOut)[k]? = some t.out ∧
        (i.inOrder.filter fun gw => (s.gateways.get gw).isSome && gw ∉ s.expiringIn)[k]? = some t.inn ∧ i.sent[k]? = some true ∧ t.started = i.now) := by
  refine ⟨fun h => ?_, fun h => ?_⟩
  · unfold Pool.State.maintain
    simp only
    rw [if_pos (by show i.now - s.lastTest < 15000; omega)]
    exact ⟨rfl, rfl⟩
  · unfold Pool.State.maintain
    simp only
    rw [if_neg (by show ¬ i.now - s.lastTest < 15000; omega)]
    refine ⟨rfl, fun t => ?_⟩
    simp only [List.mem_append, Pool.State.pairs, List.mem_filterMap]
    refine or_congr Iff.rfl ⟨?_, ?_⟩
    · rintro ⟨⟨⟨a, b⟩, c⟩, h1, h2⟩
      obtain ⟨k, hk⟩ := List.mem_iff_getElem?.mp h1
      rw [List.getElem?_zip_eq_some, List.getElem?_zip_eq_some] at hk
      obtain ⟨⟨k1, k2⟩, k3⟩ := hk
      simp only at k1 k2 k3 h2
      split at h2
      · rename_i hc
        cases h2
        exact ⟨k, k1, k2, by rw [k3, hc], rfl⟩
      · cases h2
    · rintro ⟨k, k1, k2, k3, k4⟩
      refine ⟨((t.out, t.inn), true), List.mem_iff_getElem?.mpr ⟨k, ?_⟩, ?_⟩
      · rw [List.getElem?_zip_eq_some, List.getElem?_zip_eq_some]
        exact ⟨⟨k1, k2⟩, k3⟩
      · cases t
        simp_all

/-- C289: the router that tests can open the message with its own key: there is a data message in it with the number of the test, and in that the text, with its length. -/
theorem C289_content {P : Ssu2.Prims} (hP : P.Lawful) (hD : TBuild.Digests P) (now now' : I2np.Duration) (id : Nat) (hid : id < 2 ^ 32) (sk esk : Bytes)
    (hn : now + 10000000000 < 2 ^ 32 * 1000000000) (hfresh : now' ≤ (now + 8000000000) / 1000000000 * 1000000000) :
    ∃ bytes lm m, message P now id sk esk = some bytes ∧ NetdbWire.Opens P sk now' bytes lm ∧ I2np.Message.parseStandard lm.payload = some (m, []) ∧ m.type = .data ∧ m.id = id ∧
      m.payload = be 4 "tunnel test".toUTF8.toList.length ++ "tunnel test".toUTF8.toList := by
  have hsha : ∀ b, 0 < (P.sha b).length := fun b => Nat.lt_of_lt_of_le (by decide) (hD.sha b)
  have ht : text.length = 15 := by decide +kernel
  have hl : ((I2np.Message.mk .data id (now + TBuild.i2npExpiration) text).serializeStandard P.sha).length ≤ 65000 := by
    simp only [I2np.Message.serializeStandard, List.length_append, be_length, List.length_take, ht]
    omega
  obtain ⟨bytes, h1, h2⟩ := NetdbWire.garlicTo_ok hP hD now now' { cloveId := id, messageId := id, innerId := 0, token := 0, esk } sk .data
    ((I2np.Message.mk .data id (now + TBuild.i2npExpiration) text).serializeStandard P.sha) ⟨hid, hid, by show 0 < 2 ^ 32; decide, hn⟩ hl hfresh
  have hnow' : now + TBuild.i2npExpiration < 2 ^ 32 * 1000000000 := TBuild.lt_aux _ hn
  have e3 : (now + TBuild.i2npExpiration) / 1000000 < 2 ^ 64 := Nat.lt_of_le_of_lt (Nat.div_le_self _ _) (Nat.lt_trans hnow' (by decide))
  have h3 := I2np.C17_standard_header_roundtrip P.sha hsha (I2np.Message.mk .data id (now + TBuild.i2npExpiration) text) [] hid e3
    (by intro h; have := congrArg List.length h; simp only [ht] at this; cases this) (by rw [ht]; decide)
  rw [List.append_nil] at h3
  exact ⟨bytes, _, _, h1, h2, h3, rfl, rfl, by show text = _; decide +kernel⟩

end Emissary.TunnelTest

namespace Emissary.Ssu2

/-- A block: its type, the length of what follows, and that. -/
def tlv (ty : Nat) (body : Bytes) : Bytes := be 1 ty ++ be 2 body.length ++ body

/-- An address in a block: the port, then four or sixteen bytes. -/
def portAndIp : SockAddr → Bytes
  | .v4 ip port => be 2 port ++ ip
  | .v6 ip port => be 2 port ++ ip

/-- C276: the payload of a retry and of a `SessionCreated` is, as the specification has it, the time in seconds, the address from which the other side was heard, port
first, and padding. -/
theorem C276_answer_blocks (now : Nat) (a : SockAddr) (padding : Bytes) (h : match a with | .v4 ip _ => ip.length = 4 | .v6 ip _ => ip.length = 16) :
    timeAddressPadding now a padding = tlv 0 (be 4 now) ++ tlv 13 (portAndIp a) ++ tlv 254 padding := by
  cases a <;> simp only at h <;> simp [timeAddressPadding, tlv, portAndIp, be_length, h]

example : timeAddressPadding 5 (.v4 [1, 2, 3, 4] 258) [9] = [0, 0, 4, 0, 0, 0, 5, 13, 0, 6, 1, 2, 1, 2, 3, 4, 254, 0, 1, 9] := by decide +kernel

end Emissary.Ssu2

namespace Emissary.Stream

/-- C03, in part: the packet that closes a stream acknowledges everything that came, and if nothing is missing nothing else. Missing: it names none of the packets that are
missing (`C03_close_violated`). -/
theorem C03_close_partial (base : Nat) (pkts : List (Nat × Bytes)) (s : Inbound) (hok : (Inbound.new base).receive pkts = .ok s) :
    s.closeAckFields.2 = [] ∧ (∀ k p, base < k → (k, p) ∈ pkts → k ≤ s.closeAckFields.1) ∧
      (s.missing = [] → ∀ k, base < k → k ≤ s.closeAckFields.1 → ∃ p, (k, p) ∈ pkts) := by
  have h := BInv.receive pkts (BInv.new base) hok
  refine ⟨rfl, fun k p hk hp => ((h.recvd k hk).mp (.inr ⟨p, hp⟩)).1, fun hm k hk hle => ?_⟩
  rcases (h.recvd k hk).mpr ⟨hle, by rw [hm]; simp⟩ with h | h
  · exact h.elim
  · exact h

example : ((Inbound.new 0).receive [(2, [1]), (1, [2])]).get.closeAckFields = (2, []) ∧ ((Inbound.new 0).receive [(2, [1]), (1, [2])]).get.missing = [] := by decide +kernel

end Emissary.Stream

namespace Emissary.NetdbWire
open Emissary.I2np

/-- C278: a lookup that names only a router for its answer is read so; the answer goes to that router. -/
theorem C278_direct_lookup (E : Prim.Env) (ri : Bytes → Option NetdbRun.RInfo) (sender : Option Bytes) (key router : Bytes) (ignore : List Bytes) (hk : key.length = 32)
    (hr : router.length = 32) (hn : ignore.length ≤ 512) (hi : ∀ x ∈ ignore, x.length = 32) (id : Nat) (e : Duration) :
    Means E ri sender ⟨.databaseLookup, id, e, DatabaseLookup.serialize ⟨ignore, key, .leaseSet, .router router⟩⟩ (.lookup key .leaseSet (.router router) ignore) ∧
    Means E ri sender ⟨.databaseLookup, id, e, DatabaseLookup.serialize ⟨ignore, key, .router, .router router⟩⟩ (.lookup key .router (.router router) ignore) ∧
    Means E ri sender ⟨.databaseLookup, id, e, DatabaseLookup.serialize ⟨ignore, key, .normal, .router router⟩⟩ (.lookup key .normal (.router router) ignore) ∧
    Means E ri sender ⟨.databaseLookup, id, e, DatabaseLookup.serialize ⟨ignore, key, .exploration, .router router⟩⟩ (.lookup key .exploration (.router router) ignore) :=
  ⟨read_lookup E ri sender ⟨ignore, key, .leaseSet, .router router⟩ id e ⟨hk, hn, hi, hr⟩, read_lookup E ri sender ⟨ignore, key, .router, .router router⟩ id e ⟨hk, hn, hi, hr⟩,
    read_lookup E ri sender ⟨ignore, key, .normal, .router router⟩ id e ⟨hk, hn, hi, hr⟩, read_lookup E ri sender ⟨ignore, key, .exploration, .router router⟩ id e ⟨hk, hn, hi, hr⟩⟩

example := C278_direct_lookup Prim.Env.sample (fun _ => none) none (List.replicate 32 1) (List.replicate 32 2) [List.replicate 32 3] (by simp) (by simp) (by simp) (by simp) 7 8

/-- C279: a published lease set is current, to a floodfill that has read it, exactly as long as neither its own time has passed, nor that of the last of its leases. Times of the
clock are milliseconds, those of leases nanoseconds. -/
theorem C279_current (l : Prim.LeaseSet2) (raw : Bytes) (now : Nat) :
    (view l raw).expired now = false ↔ now / 1000 ≤ l.header.expires ∧ ∃ x ∈ l.leases, now ≤ x.expires / 1000000000 * 1000 := by
  rw [NetdbRun.current_iff]
  simp only [NetdbRun.Current, view, List.mem_map, exists_exists_and_eq_and]

end Emissary.NetdbWire

namespace Emissary.GarlicPeer
open Emissary Emissary.I2np Emissary.Garlic
open Emissary.Ntcp2 (unle le)
open Emissary.Ecies

/-- C280: one who has asked for a session is remembered for five minutes from then, unless there was something before. -/
theorem C280_remembered {C : Cfg} (hP : C.P.Lawful) {n : Mgr} {a b e d plain body : Bytes} {bs : List Block} (hn : n.ctx = KeyCtx.new C.P b)
    (he : Encodable C.P C.E e) (hc : Carries plain bs) (hst : bs.findSome? storeBody = some body) (hrd : C.readStore body = some (d, d))
    (hu : n.tags.map (unle ((C.E.encode e).take 8)) = none) (hna : C.chk = false ∨ ∀ b ∈ bs, (∀ x, b ≠ .ack x) ∧ b ≠ .ackRequest) (v : Draw)
    (hp : n.pending = []) (hv : n.active.get d = none) (now : Duration) :
    (((n.decrypt C v (garlic (Kdf.newSession C.P C.E a e (C.P.pub b) plain).2)).2.maintain now).pending.get d).isSome = true ↔ now ≤ v.now + 300000000000 := by
  have h := (request_read (a := a) hP hn he hc hst hrd hu hna v).2 (by rw [hp]; rfl) hv
  simp only at h
  rw [h, hp]
  simp only [Mgr.maintain, Assoc.put, Assoc.del, List.filter_nil, List.nil_append, List.filter_cons, Pending.expired, Pending.inbound, pendingMaxAge]
  by_cases hx : v.now + 5 * 60 * 1000000000 < now
  · simp only [hx, decide_true, Bool.not_true, Bool.false_eq_true, if_false]
    constructor
    · intro h0; cases h0
    · intro h0; exact absurd hx (Nat.not_lt.mpr h0)
  · simp only [hx, decide_false, Bool.not_false, if_true]
    constructor
    · intro _; exact Nat.not_lt.mp hx
    · intro _; simp [Assoc.get]

example := TunnelTest.C289_content spreadPrims_lawful spread_digests 5000000000 6000000000 77 (by decide) [3] [4] (by decide) (by decide)

example (v : Draw) := C280_remembered (C := chatCfg) spreadPrims_lawful (n := chatN) (a := [2]) (b := [3]) (e := [9]) (d := idA) (plain := peerText) (body := [1, 2])
  (bs := peerBlocks) rfl (chat_sendable 9 0).2 peer_carries rfl rfl rfl (.inr peer_acks) v rfl rfl

end Emissary.GarlicPeer

namespace Emissary.StreamTask

/-- C282: what the client gives, up to 65535 bytes at a time, is taken whole, unless the stream is closed or packets wait. -/
theorem C282_read (t : Task) (he : t.ended = none) (hr : t.readClosed = false) (hp : t.tx.pending = []) (data : Bytes) (h1 : data ≠ []) (h2 : data.length ≤ 65535) (oks : List Bool) :
    (t.step (.read data oks)).1.taken = t.taken ++ data := by
  have hc : (t.readClosed || !t.tx.pending.isEmpty || data.isEmpty || decide (data.length > Stream.readBufferSize)) = false := by
    have : Stream.readBufferSize = 65535 := rfl
    simp [hr, hp, h1, this]
    omega
  simp only [Task.step, he, Option.isSome_none, Bool.false_eq_true, if_false, hc]

example : (((Task.new 0 none).step (.read [1, 2, 3] [true])).1.taken) = [1, 2, 3] := by decide +kernel

end Emissary.StreamTask
