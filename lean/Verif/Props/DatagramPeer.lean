import Verif.Props.DatagramExamples
/-!
# C290: datagrams with clients of any implementation
-/
namespace Emissary.Datagram

open Emissary.Prim (Destination Env parseUInt VKey)

/-! ## Specification -/

/-- The signature types of the specification of common structures that destinations are made with. -/
inductive SigType where
  | dsa | p256 | p384 | p521 | ed25519 | red25519
deriving DecidableEq

def SigType.code : SigType → Nat
  | .dsa => 0 | .p256 => 1 | .p384 => 2 | .p521 => 3 | .ed25519 => 7 | .red25519 => 11

/-- Length of a public key. -/
def SigType.keyLen : SigType → Nat
  | .dsa => 128 | .p256 => 64 | .p384 => 96 | .p521 => 132 | .ed25519 => 32 | .red25519 => 32

/-- Length of a signature. -/
def SigType.sigLen : SigType → Nat
  | .dsa => 40 | .p256 => 64 | .p384 => 96 | .p521 => 132 | .ed25519 => 64 | .red25519 => 64

/-- Who writes a datagram. `crypto` is the type of the key for encryption, `enc` the field for this key. -/
structure Author where
  type : SigType
  crypto : Nat
  enc : Bytes
  pad : Bytes
  key : Bytes

structure Author.Fits (a : Author) : Prop where
  crypto : a.crypto < 65536
  enc : a.enc.length = 256
  key : a.key.length = a.type.keyLen
  pad : a.pad.length = 128 - a.type.keyLen

/-- A destination with a key certificate: the end of a key that is too long is in the certificate. -/
def Author.bytes (a : Author) : Bytes :=
  a.enc ++ (a.pad ++ a.key.take 128) ++ ([5] ++ be 2 (4 + (a.key.length - 128)) ++ be 2 a.type.code ++ be 2 a.crypto ++ a.key.drop 128)

/-- An old destination, with a null certificate. -/
def Author.old (a : Author) : Bytes := a.enc ++ a.key ++ [0, 0, 0]

/-- A payload in gzip format (RFC 1952) whose fields for the time and the system have the ports and the protocol. -/
def wrap (flags xfl : UInt8) (src dst : Nat) (protocol : UInt8) (rest : Bytes) : Bytes :=
  [31, 139, 8, flags] ++ be 2 src ++ be 2 dst ++ [xfl, protocol] ++ rest

/-! ## Theorems -/

theorem wrap_read (G : Gzip) (flags xfl : UInt8) (src dst : Nat) (hs : src < 65536) (hd : dst < 65536) (code : UInt8) (p : Protocol) (hp : Protocol.ofCode code = some p) (rest x : Bytes)
    (h : G.decompress (wrap flags xfl src dst code rest) = some x) : decompress G (wrap flags xfl src dst code rest) = some ⟨dst, x, p, src⟩ := by
  have h1 : ((wrap flags xfl src dst code rest).drop 4).take 2 = be 2 src := by
    have e : (wrap flags xfl src dst code rest).drop 4 = be 2 src ++ (be 2 dst ++ ([xfl, code] ++ rest)) := by
      simp only [wrap, List.append_assoc]
      rfl
    rw [e, List.take_left' (be_length ..)]
  have h2 : ((wrap flags xfl src dst code rest).drop 6).take 2 = be 2 dst := by
    unfold wrap
    simp only [List.append_assoc]
    rw [← List.append_assoc, List.drop_left' (by rw [List.length_append, be_length]; rfl), List.take_left' (be_length ..)]
  have h3 : (wrap flags xfl src dst code rest).getD 9 0 = code := by
    have e : wrap flags xfl src dst code rest = ([31, 139, 8, flags] ++ be 2 src ++ be 2 dst ++ [xfl]) ++ (code :: rest) := by simp only [wrap, List.append_assoc, List.cons_append, List.nil_append]
    rw [e, List.getD_eq_getElem?_getD, List.getElem?_append_right (by simp only [List.length_append, be_length, List.length_cons, List.length_nil]; omega)]
    simp only [List.length_append, be_length, List.length_cons, List.length_nil]
    rfl
  have h4 : ¬ (wrap flags xfl src dst code rest).length < 10 := by
    simp only [wrap, List.length_append, be_length, List.length_cons, List.length_nil]
    omega
  unfold decompress
  rw [if_neg h4, h3, hp, h, h1, h2]
  simp only [bind_some_val, Option.pure_def]
  rw [unbe_be, unbe_be, Nat.mod_eq_of_lt hs, Nat.mod_eq_of_lt hd]

/-- How the code reads the first 384 bytes of a destination and its certificate. -/
theorem parse_parts (E : Env) (init : Bytes) (h : init.length = 384) (kind len : Nat) (hk : kind < 256) (hl : len < 65536) (r : Bytes) :
    Destination.parse E (init ++ (be 1 kind ++ (be 2 len ++ r))) = (Destination.parseCert E init kind len r).bind fun x =>
      some (⟨E.sha256 ((init ++ (be 1 kind ++ (be 2 len ++ r))).take x.1.2), (init ++ (be 1 kind ++ (be 2 len ++ r))).take x.1.2, x.1.1⟩, x.2) := by
  unfold Destination.parse
  rw [if_neg (by simp only [List.length_append, be_length]; omega), takeN_append h]
  simp only [bind_some_pair, beU_be, show kind % 256 ^ 1 = kind from Nat.mod_eq_of_lt hk, show len % 256 ^ 2 = len from Nat.mod_eq_of_lt hl]
  rfl

theorem bytes_eq (a : Author) (ha : a.Fits) (r : Bytes) :
    a.bytes ++ r = (a.enc ++ (a.pad ++ a.key.take 128)) ++ (be 1 5 ++ (be 2 (4 + (a.key.length - 128)) ++ (be 2 a.type.code ++ (be 2 a.crypto ++ (a.key.drop 128 ++ r))))) ∧
      (a.enc ++ (a.pad ++ a.key.take 128)).length = 384 := by
  refine ⟨?_, ?_⟩
  · rw [show be 1 5 = [5] from rfl]
    simp only [Author.bytes, List.append_assoc]
  · simp only [List.length_append, List.length_take, ha.enc, ha.pad, ha.key]
    cases a.type <;> rfl

/-- Destinations for Ed25519 and P-256 are read, whatever the type of their key for encryption. -/
theorem author_read (E : Env) (a : Author) (ha : a.Fits) (k : VKey) (hk : (a.type = .ed25519 ∧ k = .ed25519 a.key) ∨ (a.type = .p256 ∧ k = .p256 a.key)) (hv : E.keyOk k = true) (r : Bytes) :
    Destination.parse E (a.bytes ++ r) = some (⟨E.sha256 a.bytes, a.bytes, k⟩, r) := by
  obtain ⟨h1, h2⟩ := bytes_eq a ha r
  have hl : a.key.length ≤ 64 := by
    rw [ha.key]
    rcases hk with ⟨h, _⟩ | ⟨h, _⟩ <;> rw [h] <;> decide
  have hb : (a.bytes ++ r).take 391 = a.bytes := by
    refine List.take_left' ?_
    obtain ⟨h1, _⟩ := bytes_eq a ha []
    rw [List.append_nil] at h1
    rw [h1]
    simp only [List.length_append] at h2
    simp only [List.length_append, be_length, List.length_drop, List.length_nil]
    omega
  have hd : a.key.drop 128 = [] := List.drop_eq_nil_of_le (by omega)
  have ht : a.key.take 128 = a.key := List.take_of_length_le (by omega)
  rw [hd, List.nil_append, show a.key.length - 128 = 0 by omega] at h1
  rw [h1] at hb ⊢
  rw [parse_parts E _ h2 5 (4 + 0) (by decide) (by decide)]
  have hc : Destination.parseCert E (a.enc ++ (a.pad ++ a.key.take 128)) 5 (4 + 0) (be 2 a.type.code ++ (be 2 a.crypto ++ r)) = some ((k, 391), r) := by
    unfold Destination.parseCert
    rw [if_neg (by decide), if_pos ⟨rfl, rfl⟩]
    simp only [beU_be, bind_some_pair]
    rcases hk with ⟨h, rfl⟩ | ⟨h, rfl⟩
    · have hp : (a.enc ++ (a.pad ++ a.key.take 128)).drop 352 = a.key := by
        rw [ht, ← List.append_assoc, List.drop_left' (by rw [List.length_append, ha.enc, ha.pad, h]; rfl)]
      rw [h, hp, if_pos (by decide)]
      simp only [Env.mkKey, hv, if_true, bind_some_val, Option.pure_def]
    · have hp : (a.enc ++ (a.pad ++ a.key.take 128)).drop 320 = a.key := by
        rw [ht, ← List.append_assoc, List.drop_left' (by rw [List.length_append, ha.enc, ha.pad, h]; rfl)]
      rw [h, hp, if_neg (by decide), if_pos (by decide)]
      simp only [Env.mkKey, hv, if_true, bind_some_val, Option.pure_def]
  rw [hc]
  show some ((⟨E.sha256 (List.take 391 _), List.take 391 _, k⟩ : Destination), r) = _
  rw [hb]

/-- **C290**, in part: a datagram of any client, in the format of the specification, whose destination is for Ed25519 or P-256, from and to any ports and compressed in any way that gzip
allows, is given to the client with the destination that it is from. -/
theorem C290_received_partial (E : Env) (G : Gzip) (b64 : Bytes → Bytes) (B : Mgr) (port : Bytes) (n : Nat) (hport : B.port = some port) (hn : parseUInt 65535 port = some n)
    (a : Author) (ha : a.Fits) (k : VKey) (hk : (a.type = .ed25519 ∧ k = .ed25519 a.key) ∨ (a.type = .p256 ∧ k = .p256 a.key)) (hv : E.keyOk k = true) (sig data : Bytes)
    (hs : sig.length = a.type.sigLen) (flags xfl : UInt8) (src dst : Nat) (hsrc : src < 65536) (hdst : dst < 65536) (rest : Bytes)
    (hz : G.decompress (wrap flags xfl src dst 17 rest) = some (a.bytes ++ sig ++ data)) :
    B.receive E G b64 true (wrap flags xfl src dst 17 rest) =
      some (.inr (.client n (b64 a.bytes ++ ascii " FROM_PORT=" ++ dec dst ++ ascii " TO_PORT=" ++ dec src ++ [10] ++ data))) := by
  have hs : sig.length = 64 := by
    rw [hs]
    rcases hk with ⟨h, _⟩ | ⟨h, _⟩ <;> rw [h] <;> rfl
  unfold Mgr.receive
  rw [wrap_read G flags xfl src dst hsrc hdst 17 .datagram rfl rest _ hz]
  show some (Sum.inr (Mgr.onDatagram E b64 B true _)) = _
  rw [onDatagram_parts E b64 B true _ ⟨E.sha256 a.bytes, a.bytes, k⟩ sig data port rfl (author_read E a ha k hk hv) hs rfl hport]
  unfold Mgr.pass
  rw [hn]
  rfl

/-- Raw datagrams of any client are given as they are. -/
theorem C290_raw_received (E : Env) (G : Gzip) (b64 : Bytes → Bytes) (B : Mgr) (port : Bytes) (n : Nat) (hport : B.port = some port) (hn : parseUInt 65535 port = some n) (data : Bytes)
    (flags xfl : UInt8) (src dst : Nat) (hsrc : src < 65536) (hdst : dst < 65536) (rest : Bytes) (hz : G.decompress (wrap flags xfl src dst 18 rest) = some data) :
    B.receive E G b64 true (wrap flags xfl src dst 18 rest) = some (.inr (.client n data)) := by
  unfold Mgr.receive
  rw [wrap_read G flags xfl src dst hsrc hdst 18 .anonymous rfl rest _ hz]
  show some (Sum.inr (Mgr.onDatagram E b64 B true _)) = _
  unfold Mgr.onDatagram
  dsimp only
  rw [hport]
  dsimp only
  unfold Mgr.pass
  rw [hn]
  rfl

/-- Datagrams from destinations of the other types are refused, and so are those for DSA with a key certificate. -/
theorem C290_types_violated (E : Env) (G : Gzip) (b64 : Bytes → Bytes) (B : Mgr) (room : Bool) (a : Author) (ha : a.Fits) (hk : a.type ≠ .ed25519) (hk' : a.type ≠ .p256) (sig data : Bytes)
    (flags xfl : UInt8) (src dst : Nat) (hsrc : src < 65536) (hdst : dst < 65536) (rest : Bytes)
    (hz : G.decompress (wrap flags xfl src dst 17 rest) = some (a.bytes ++ sig ++ data)) :
    B.receive E G b64 room (wrap flags xfl src dst 17 rest) = some (.inr .error) := by
  unfold Mgr.receive
  rw [wrap_read G flags xfl src dst hsrc hdst 17 .datagram rfl rest _ hz]
  show some (Sum.inr (Mgr.onDatagram E b64 B room _)) = _
  have hp : Destination.parse E (a.bytes ++ sig ++ data) = none := by
    obtain ⟨h1, h2⟩ := bytes_eq a ha (sig ++ data)
    have hl : 4 + (a.key.length - 128) < 65536 := by
      rw [ha.key]
      cases a.type <;> decide
    rw [List.append_assoc, h1, parse_parts E _ h2 5 _ (by decide) hl]
    have : Destination.parseCert E (a.enc ++ (a.pad ++ a.key.take 128)) 5 (4 + (a.key.length - 128)) (be 2 a.type.code ++ (be 2 a.crypto ++ (a.key.drop 128 ++ (sig ++ data)))) = none := by
      unfold Destination.parseCert
      rw [if_neg (by decide)]
      split
      · simp only [beU_be, bind_some_pair]
        rw [if_neg (by revert hk; cases a.type <;> decide), if_neg (by revert hk'; cases a.type <;> decide)]
      · rfl
    rw [this]
    rfl
  unfold Mgr.onDatagram
  dsimp only
  rw [hp]

/-- Datagrams of the formats that came later, whose protocols are 19 and 20, are dropped. -/
theorem C290_newer_violated (E : Env) (G : Gzip) (b64 : Bytes → Bytes) (B : Mgr) (room : Bool) (flags xfl : UInt8) (src dst : Nat) (code : UInt8) (hc : code = 19 ∨ code = 20) (rest : Bytes) :
    B.receive E G b64 room (wrap flags xfl src dst code rest) = none := by
  have h3 : (wrap flags xfl src dst code rest).getD 9 0 = code := by
    have e : wrap flags xfl src dst code rest = ([31, 139, 8, flags] ++ be 2 src ++ be 2 dst ++ [xfl]) ++ (code :: rest) := by simp only [wrap, List.append_assoc, List.cons_append, List.nil_append]
    rw [e, List.getD_eq_getElem?_getD, List.getElem?_append_right (by simp only [List.length_append, be_length, List.length_cons, List.length_nil]; omega)]
    simp only [List.length_append, be_length, List.length_cons, List.length_nil]
    rfl
  have hn : Protocol.ofCode code = none := by rcases hc with rfl | rfl <;> rfl
  unfold Mgr.receive decompress
  rw [h3, hn]
  split <;> rfl

/-- What a client sends is in the format of the specification: the payload, compressed, has in its header the ports 0 and the protocol, and is the destination, the signature of the
data and the data, or the data alone. -/
theorem C290_sent (E : Env) (G : Gzip) (hG : G.Ok) (A : Mgr) (key padding : Bytes) (hk : key.length = 32) (hp : padding.length = 352) (hA : A.dest = Destination.new E key padding)
    (data message : Bytes) (hm : A.send G data = some message) :
    ∃ a : Author, a.Fits ∧ a.type = .ed25519 ∧ a.key = key ∧ a.bytes = A.dest.serialized ∧
      ∃ c, G.compress (match A.kind with | .datagram => a.bytes ++ A.sign data ++ data | _ => data) = some c ∧
        message = c.take 4 ++ be 2 0 ++ be 2 0 ++ (c.drop 8).take 1 ++ [(match A.kind with | .datagram => 17 | _ => 18 : UInt8)] ++ c.drop 10 := by
  have hb : (⟨.ed25519, 0, padding.take 256, padding.drop 256, key⟩ : Author).bytes = A.dest.serialized := by
    rw [hA]
    simp only [Author.bytes, Destination.new, List.drop_eq_nil_of_le (show key.length ≤ 128 by omega), List.take_of_length_le (show key.length ≤ 128 by omega), hk, List.append_nil]
    rw [← List.append_assoc (padding.take 256), List.take_append_drop]
    simp only [List.append_assoc]
    rfl
  refine ⟨⟨.ed25519, 0, padding.take 256, padding.drop 256, key⟩, ⟨by show 0 < 65536; decide, by simp [hp], hk, by simp [hp]; rfl⟩, rfl, rfl, hb, ?_⟩
  · have built : ∀ p x, build G 0 0 p x = some message → ∃ c, G.compress x = some c ∧
        message = c.take 4 ++ be 2 0 ++ be 2 0 ++ (c.drop 8).take 1 ++ [p.code] ++ c.drop 10 := by
      intro p x h
      cases hc : G.compress x with
      | none => unfold build at h; rw [hc] at h; cases h
      | some c =>
        refine ⟨c, rfl, ?_⟩
        rw [build_length G 0 0 p x c message hc h]
        match c, (hG x c hc).1 with
        | _ :: _ :: _ :: _ :: _ :: _ :: _ :: _ :: _ :: _ :: _, _ => rfl
    have ha : (⟨.ed25519, 0, padding.take 256, padding.drop 256, key⟩ : Author).bytes = A.dest.serialized := hb
    rw [ha]
    unfold Mgr.send Mgr.make at hm
    cases hkind : A.kind with
    | stream => rw [hkind] at hm; cases hm
    | anonymous =>
      rw [hkind] at hm
      exact built .anonymous data hm
    | datagram =>
      rw [hkind] at hm
      exact built .datagram _ hm

/-! ## Examples -/

def toyAuthor : Author := ⟨.p256, 4, List.replicate 256 1, List.replicate 64 2, List.replicate 64 3⟩
theorem toyAuthor_fits : toyAuthor.Fits := ⟨by decide, by decide +kernel, by decide +kernel, by decide +kernel⟩
def toyOther : Author := ⟨.p521, 4, List.replicate 256 1, [], List.replicate 132 3⟩
theorem toyOther_fits : toyOther.Fits := ⟨by decide, by decide +kernel, by decide +kernel, by decide +kernel⟩

example := C290_received_partial Env.sample toyGzip (fun _ => ascii "AAAA") bob (ascii "7655") 7655 rfl (by decide +kernel) toyAuthor toyAuthor_fits (.p256 toyAuthor.key) (.inr ⟨rfl, rfl⟩)
  (by decide +kernel) (List.replicate 64 7) [1, 2, 3] (by decide +kernel) 0 0 80 443 (by decide) (by decide) (toyAuthor.bytes ++ List.replicate 64 7 ++ [1, 2, 3]) rfl
example := C290_raw_received Env.sample toyGzip (fun _ => ascii "AAAA") bob (ascii "7655") 7655 rfl (by decide +kernel) [1, 2, 3] 0 0 80 443 (by decide) (by decide) [1, 2, 3] rfl
example := C290_types_violated Env.sample toyGzip (fun _ => ascii "AAAA") bob true toyOther toyOther_fits (by decide) (by decide) (List.replicate 132 7) [1, 2, 3] 0 0 80 443 (by decide) (by decide)
  (toyOther.bytes ++ List.replicate 132 7 ++ [1, 2, 3]) rfl
example := C290_newer_violated Env.sample toyGzip (fun _ => ascii "AAAA") bob true 0 0 80 443 19 (.inl rfl) [1, 2, 3]
example := C290_sent Env.sample toyGzip toyGzip_ok alice toyKey toyPad (by decide) (by decide +kernel) rfl [5, 6] _ rfl

end Emissary.Datagram
