import Verif.Model.Datagram
import Verif.Props.Primitives
/-!
# I2CP payloads and SAM datagrams

* C177: a datagram reaches the client of the other session as it was sent, with its true sender.
* C178: an I2CP payload is read as it was built.
-/
namespace Emissary.Datagram

open Emissary.Prim (Destination Env parseUInt VKey)

/-! ## Specification -/

/-- Gzip: the header has ten bytes, and the bytes 4 to 7 (time) and 9 (system) do not matter when a payload is decompressed. -/
def Gzip.Ok (G : Gzip) : Prop := ∀ p c, G.compress p = some c → 10 ≤ c.length ∧
  ∀ c' : Bytes, c'.length = c.length → (∀ i, i ∉ [4, 5, 6, 7, 9] → c'[i]? = c[i]?) → G.decompress c' = some p

/-! ## C178 -/

theorem build_length (G : Gzip) (src dst : Nat) (p : Protocol) (x c b : Bytes) (hc : G.compress x = some c) (hb : build G src dst p x = some b) :
    b = (put2 (put2 c 4 src) 6 dst).set 9 p.code := by
  unfold build at hb
  rw [hc] at hb
  exact (Option.some.inj hb).symm

theorem ofCode_code (p : Protocol) : Protocol.ofCode p.code = some p := by cases p <;> rfl

/-- The header of a payload. -/
theorem header (c : Bytes) (hc : 10 ≤ c.length) (src dst : Nat) (p : Protocol) (hs : src < 65536) (hd : dst < 65536) (b : Bytes)
    (hb : b = (put2 (put2 c 4 src) 6 dst).set 9 p.code) :
    b.length = c.length ∧ b.getD 9 0 = p.code ∧ unbe ((b.drop 4).take 2) = src ∧ unbe ((b.drop 6).take 2) = dst ∧ ∀ i, i ∉ [4, 5, 6, 7, 9] → b[i]? = c[i]? := by
  match c, hc with
  | b0 :: b1 :: b2 :: b3 :: b4 :: b5 :: b6 :: b7 :: b8 :: b9 :: t, _ =>
    subst hb
    have hw : ∀ n, n < 65536 → unbe [UInt8.ofNat (n / 256), UInt8.ofNat n] = n := by
      intro n hn
      have h1 : (UInt8.ofNat (n / 256)).toNat = n / 256 := by
        rw [UInt8.toNat_ofNat']
        omega
      have h2 : (UInt8.ofNat n).toNat = n % 256 := by rw [UInt8.toNat_ofNat']
      simp only [unbe, h1, h2, List.length_cons, List.length_nil]
      omega
    refine ⟨by simp [put2], rfl, hw src hs, hw dst hd, ?_⟩
    intro i hi
    match i with
    | 0 => rfl
    | 1 => rfl
    | 2 => rfl
    | 3 => rfl
    | 4 => simp at hi
    | 5 => simp at hi
    | 6 => simp at hi
    | 7 => simp at hi
    | 8 => rfl
    | 9 => simp at hi
    | _ + 10 => rfl

/-- A payload is read as it was built: data, ports and protocol. -/
theorem C178_roundtrip (G : Gzip) (hG : G.Ok) (src dst : Nat) (hs : src < 65536) (hd : dst < 65536) (p : Protocol) (data b : Bytes) (hb : build G src dst p data = some b) :
    decompress G b = some { src := src, dst := dst, protocol := p, payload := data } ∧ parameters b = some (src, dst, p) := by
  cases hc : G.compress data with
  | none =>
    unfold build at hb
    rw [hc] at hb
    cases hb
  | some c =>
    obtain ⟨hl, hz⟩ := hG data c hc
    obtain ⟨h1, h2, h3, h4, h5⟩ := header c hl src dst p hs hd b (build_length G src dst p data c b hc hb)
    refine ⟨?_, ?_⟩
    · unfold decompress
      rw [if_neg (by omega), h2, ofCode_code, h3, h4, bind_some_val, hz b h1 h5]
      rfl
    · unfold parameters
      rw [if_neg (by omega), h2, ofCode_code, h3, h4]
      rfl

/-- A payload can be built whenever the data can be compressed. -/
theorem C178_built (G : Gzip) (src dst : Nat) (p : Protocol) (data : Bytes) : (build G src dst p data).isSome = (G.compress data).isSome := by
  unfold build
  cases G.compress data <;> rfl

/-- What is shorter than the header or of another protocol is refused, and the parameters of everything else are the ones that are read with the data. -/
theorem C178_refused (G : Gzip) (b : Bytes) :
    (b.length < 10 → decompress G b = none ∧ parameters b = none) ∧
    (b.getD 9 0 ∉ [6, 17, 18] → decompress G b = none ∧ parameters b = none) ∧
    (∀ p, decompress G b = some p → parameters b = some (p.src, p.dst, p.protocol) ∧ G.decompress b = some p.payload ∧ b.getD 9 0 = p.protocol.code) := by
  refine ⟨?_, ?_, ?_⟩
  · intro h
    unfold decompress parameters
    rw [if_pos h, if_pos h]
    exact ⟨rfl, rfl⟩
  · intro h
    have h0 : Protocol.ofCode (b.getD 9 0) = none := by
      unfold Protocol.ofCode
      simp only [List.mem_cons, List.not_mem_nil, or_false, not_or] at h
      rw [if_neg h.1, if_neg h.2.1, if_neg h.2.2]
    unfold decompress parameters
    rw [h0]
    split <;> exact ⟨rfl, rfl⟩
  · intro p h
    unfold decompress at h
    unfold parameters
    split at h
    · cases h
    · rename_i hl
      rw [if_neg hl]
      unbind h with q e1
      unbind h with data e2
      have := Option.some.inj h
      subst this
      refine ⟨by rw [e1]; rfl, e2, ?_⟩
      unfold Protocol.ofCode at e1
      split at e1
      · cases e1
        assumption
      · split at e1
        · cases e1
          assumption
        · split at e1
          · cases e1
            assumption
          · cases e1

/-! ## C177 -/

theorem onDatagram_parts (E : Env) (b64 : Bytes → Bytes) (m : Mgr) (room : Bool) (p : Payload) (d : Destination) (sig data : Bytes) (port : Bytes) (hp : p.protocol = .datagram)
    (hd : ∀ r, Destination.parse E (d.serialized ++ r) = some (d, r)) (hs : sig.length = 64) (hx : p.payload = d.serialized ++ sig ++ data) (hm : m.port = some port) :
    m.onDatagram E b64 room p = Mgr.pass port room (info b64 d p.dst p.src ++ data) := by
  unfold Mgr.onDatagram
  rw [hp]
  dsimp only
  rw [hx, List.append_assoc, hd]
  dsimp only
  rw [takeN_append hs, hm]

/-- A datagram is delivered to the port of the other session's client: in a session for repliable datagrams after a line with the sender, in a session for raw datagrams as it is.
The sessions may be of different kinds. -/
theorem C177_delivered_partial (E : Env) (G : Gzip) (hG : G.Ok) (b64 : Bytes → Bytes) (A B : Mgr) (key padding : Bytes) (hk : key.length = 32) (hp : padding.length = 352)
    (hv : E.keyOk (.ed25519 key) = true) (hA : A.dest = Destination.new E key padding) (hsig : ∀ x, (A.sign x).length = 64) (data message : Bytes) (hm : A.send G data = some message)
    (port : Bytes) (n : Nat) (hport : B.port = some port) (hn : parseUInt 65535 port = some n) :
    B.receive E G b64 true message = some (.inr (.client n (match A.kind with
      | .datagram => b64 A.dest.serialized ++ ascii " FROM_PORT=0 TO_PORT=0\n" ++ data
      | _ => data))) := by
  unfold Mgr.send at hm
  unbind hm with x e1
  obtain ⟨h1, _⟩ := C178_roundtrip G hG 0 0 (by omega) (by omega) _ x message hm
  unfold Mgr.receive
  rw [h1]
  unfold Mgr.make at e1
  cases hkind : A.kind with
  | stream =>
    rw [hkind] at e1
    cases e1
  | anonymous =>
    rw [hkind] at e1
    cases e1
    show some (Sum.inr (Mgr.onDatagram E b64 B true _)) = _
    unfold Mgr.onDatagram
    show some (Sum.inr (match B.port with | none => Res.error | some port => Mgr.pass port true data)) = _
    rw [hport]
    dsimp only
    unfold Mgr.pass
    rw [hn]
    rfl
  | datagram =>
    rw [hkind] at e1
    have e1 := Option.some.inj e1
    show some (Sum.inr (Mgr.onDatagram E b64 B true { src := 0, dst := 0, protocol := .datagram, payload := x })) = _
    rw [onDatagram_parts E b64 B true _ A.dest (A.sign data) data port rfl (fun r => by rw [hA]; exact Prim.C26_new_destination_roundtrip E key padding r hk hp hv) (hsig data) e1.symm hport]
    unfold Mgr.pass
    rw [hn]
    unfold info
    show some (Sum.inr (Res.client n _)) = some (Sum.inr (Res.client n _))
    have : ascii " FROM_PORT=0 TO_PORT=0\n" = ascii " FROM_PORT=" ++ dec 0 ++ ascii " TO_PORT=" ++ dec 0 ++ [10] := by decide +kernel
    rw [this]
    simp only [List.append_assoc]

/-- Nothing else is delivered: what the client gets is what arrived. -/
theorem C177_exact (E : Env) (b64 : Bytes → Bytes) (m : Mgr) (room : Bool) (p : Payload) (n : Nat) (out : Bytes) (h : m.onDatagram E b64 room p = .client n out) :
    (∃ port, m.port = some port ∧ parseUInt 65535 port = some n) ∧
    ((p.protocol = .anonymous ∧ out = p.payload) ∨
     (p.protocol = .datagram ∧ ∃ (d : Destination) (sig data : Bytes), Destination.parse E p.payload = some (d, sig ++ data) ∧ p.payload = d.serialized ++ sig ++ data ∧ sig.length = 64 ∧
       out = info b64 d p.dst p.src ++ data)) := by
  have pass : ∀ port x, Mgr.pass port room x = .client n out → parseUInt 65535 port = some n ∧ out = x := by
    intro port x h
    unfold Mgr.pass at h
    split at h
    · cases h
    · rename_i k hk
      split at h
      · cases h
        exact ⟨hk, rfl⟩
      · cases h
  unfold Mgr.onDatagram at h
  split at h
  · rename_i hp
    split at h
    · cases h
    · rename_i d rest hd
      split at h
      · cases h
      · rename_i sig data ht
        split at h
        · cases h
        · rename_i port hport
          obtain ⟨h1, h2⟩ := pass _ _ h
          obtain ⟨h3, h4⟩ := takeN_some ht
          subst h3
          refine ⟨⟨port, hport, h1⟩, .inr ⟨hp, d, sig, data, hd, ?_, h4, h2⟩⟩
          rw [(Prim.C26_destination_parse_exact E _ _ d hd).1, List.append_assoc]
  · rename_i hp
    split at h
    · cases h
    · rename_i port hport
      obtain ⟨h1, h2⟩ := pass _ _ h
      exact ⟨⟨port, hport, h1⟩, .inl ⟨hp, h2⟩⟩
  · cases h

/-- The signature is not checked: anybody who can send to the session can send a datagram in the name of any destination. -/
theorem C177_forged_violated (E : Env) (G : Gzip) (hG : G.Ok) (b64 : Bytes → Bytes) (B : Mgr) (key padding : Bytes) (hk : key.length = 32) (hp : padding.length = 352)
    (hv : E.keyOk (.ed25519 key) = true) (sig data message : Bytes) (hs : sig.length = 64)
    (hm : build G 0 0 .datagram ((Destination.new E key padding).serialized ++ sig ++ data) = some message) (port : Bytes) (n : Nat) (hport : B.port = some port)
    (hn : parseUInt 65535 port = some n) :
    B.receive E G b64 true message = some (.inr (.client n (info b64 (Destination.new E key padding) 0 0 ++ data))) := by
  obtain ⟨h1, _⟩ := C178_roundtrip G hG 0 0 (by omega) (by omega) _ _ message hm
  unfold Mgr.receive
  rw [h1]
  show some (Sum.inr (Mgr.onDatagram E b64 B true _)) = _
  rw [onDatagram_parts E b64 B true _ (Destination.new E key padding) sig data port rfl (fun r => Prim.C26_new_destination_roundtrip E key padding r hk hp hv) hs rfl hport]
  unfold Mgr.pass
  rw [hn]
  rfl

/-- The ports are swapped: the client is told that the datagram comes from the port it was sent to and is for the port it was sent from. -/
theorem C177_ports_violated (E : Env) (G : Gzip) (hG : G.Ok) (b64 : Bytes → Bytes) (B : Mgr) (src dst : Nat) (hsrc : src < 65536) (hdst : dst < 65536) (x message : Bytes)
    (hm : build G src dst .datagram x = some message) (n : Nat) (out : Bytes) (h : B.receive E G b64 true message = some (.inr (.client n out))) :
    ∃ t data, out = t ++ ascii " FROM_PORT=" ++ dec dst ++ ascii " TO_PORT=" ++ dec src ++ [10] ++ data := by
  obtain ⟨h1, _⟩ := C178_roundtrip G hG src dst hsrc hdst _ _ message hm
  unfold Mgr.receive at h
  rw [h1] at h
  have h : Mgr.onDatagram E b64 B true { src := src, dst := dst, protocol := .datagram, payload := x } = .client n out := by
    have h := Option.some.inj h
    exact Sum.inr.inj h
  obtain ⟨_, h | ⟨_, d, sig, data, _, _, _, h⟩⟩ := C177_exact E b64 B true _ n out h
  · cases h.1
  · exact ⟨b64 d.serialized, data, h⟩

/-- A session whose client gave a port that is not a number goes down with the first datagram. -/
theorem C177_port_violated (E : Env) (b64 : Bytes → Bytes) (B : Mgr) (room : Bool) (port : Bytes) (hport : B.port = some port) (hn : parseUInt 65535 port = none) (p : Payload)
    (hp : p.protocol = .anonymous) : B.onDatagram E b64 room p = .panic := by
  unfold Mgr.onDatagram
  rw [hp, hport]
  dsimp only
  unfold Mgr.pass
  rw [hn]

/-- Datagrams for which the channel has no room are lost, and without a port there are none. -/
theorem C177_lost_violated (E : Env) (b64 : Bytes → Bytes) (B : Mgr) (p : Payload) (n : Nat) (out : Bytes) :
    B.onDatagram E b64 false p ≠ .client n out ∧ (B.port = none → B.onDatagram E b64 true p ≠ .client n out) := by
  refine ⟨?_, ?_⟩
  · intro h
    unfold Mgr.onDatagram at h
    have pass : ∀ port x, Mgr.pass port false x ≠ .client n out := by
      intro port x h
      unfold Mgr.pass at h
      split at h <;> cases h
    split at h
    · split at h
      · cases h
      · split at h
        · cases h
        · split at h
          · cases h
          · exact pass _ _ h
    · split at h
      · cases h
      · exact pass _ _ h
    · cases h
  · intro hp h
    obtain ⟨⟨port, h1, _⟩, _⟩ := C177_exact E b64 B true p n out h
    rw [hp] at h1
    cases h1

/-- Signatures of DSA keys have 40 bytes, but 64 are skipped: the first 24 bytes of the data are lost. -/
theorem C177_dsa_violated (E : Env) (b64 : Bytes → Bytes) (B : Mgr) (d : Destination) (sig data : Bytes) (k : Bytes) (hk : d.key = .dsa k) (hs : sig.length = d.key.sigLen)
    (hd : ∀ r, Destination.parse E (d.serialized ++ r) = some (d, r)) (hl : 24 ≤ data.length) (src dst : Nat) (n : Nat) (out : Bytes)
    (h : B.onDatagram E b64 true { src := src, dst := dst, protocol := .datagram, payload := d.serialized ++ sig ++ data } = .client n out) :
    out = info b64 d dst src ++ data.drop 24 := by
  obtain ⟨_, h | ⟨_, d', sig', data', h1, h2, h3, h4⟩⟩ := C177_exact E b64 B true _ n out h
  · cases h.1
  · have hp := hd (sig ++ data)
    dsimp only at h1 h2
    rw [List.append_assoc] at h1
    rw [hp] at h1
    have h1 := Prod.mk.inj (Option.some.inj h1)
    have hs : sig.length = 40 := by rw [hs, hk]; rfl
    have : data' = data.drop 24 := by
      have h5 : (sig ++ data).drop 64 = (sig' ++ data').drop 64 := by rw [h1.2]
      rw [List.drop_left' h3, List.drop_append, List.drop_eq_nil_of_le (by omega), hs] at h5
      exact h5.symm
    rw [h4, this, h1.1]

end Emissary.Datagram
