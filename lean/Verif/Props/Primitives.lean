import Verif.Lemmas.Primitives
/-!
# Properties of the common structures (C24–C29)

`Env` carries the cryptographic primitives; nothing is assumed about them unless a theorem says so.
-/
namespace Emissary.Prim
open Emissary

/-- A concrete environment for the examples: every key and text is valid, a signature verifies if it is 64 bytes
long and starts with the message length modulo 256. -/
def Env.sample : Env where
  sha256 b := be 32 b.length
  utf8 _ := true
  keyOk _ := true
  verify k m s := s.length == k.sigLen && s.head? == some (UInt8.ofNat m.length)
  parseIp b := some b

/-! ## C24 -/

/-- C24: an I2P string of at most 255 bytes is parsed back, leaving the rest. -/
theorem C24_string_roundtrip (E : Env) (s : Str) (r : Bytes) (hl : s.length ≤ 255) (hu : E.utf8 s = true) :
    Str.parse E (Str.serialize s ++ r) = some (s, r) := Str.parse_serialize hl hu r

/-- C24, converse: whatever is accepted is the serialized form of the returned valid string of at most 255 bytes,
followed by the bytes left over. -/
theorem C24_string_parse_exact (E : Env) (i r : Bytes) (s : Str) (h : Str.parse E i = some (s, r)) :
    i = Str.serialize s ++ r ∧ s.length ≤ 255 ∧ E.utf8 s = true := Str.parse_some h

/-- C24, checked construction: text accepted by the checked conversion always round-trips and longer text is
refused. -/
theorem C24_checked_string_roundtrip (E : Env) (t r : Bytes) (hu : E.utf8 t = true) :
    (t.length ≤ 255 ∧ ∃ s, Str.fromStr t = some s ∧ Str.parse E (Str.serialize s ++ r) = some (t, r)) ∨
    (255 < t.length ∧ Str.fromStr t = none) := by
  rcases Nat.lt_or_ge 255 t.length with h | h
  · exact .inr ⟨h, by simp [Str.fromStr, h]⟩
  · exact .inl ⟨h, t, by simp [Str.fromStr]; omega, Str.parse_serialize h hu r⟩

example : Str.parse Env.sample (Str.serialize [104, 105] ++ [1, 2]) = some ([104, 105], [1, 2]) := by decide +kernel

/-! ## C25 -/

/-- C25: a list of mappings of any length whose serialized size fits 16 bits is parsed back in order, and exactly
the announced bytes are consumed. -/
theorem C25_mappings_roundtrip (E : Env) (ms : List Mapping) (r : Bytes)
    (h : ∀ m ∈ ms, m.key.length ≤ 255 ∧ m.value.length ≤ 255 ∧ E.utf8 m.key = true ∧ E.utf8 m.value = true)
    (hs : ((ms.map Mapping.serialize).flatten).length < 65536) :
    Mapping.parseMulti E (be 2 ((ms.map Mapping.serialize).flatten).length ++ (ms.map Mapping.serialize).flatten ++ r)
      = some (ms, r) := by
  rw [Mapping.flatten_length] at hs
  exact Mapping.parseMulti_serialize ms h hs r

/-- C25: the map built from parsed mappings holds, for every key, the value of the last mapping with that key. -/
theorem C25_into_hashmap_last_wins (ms : List Mapping) (k : Str) :
    Options.get (Options.ofList ms) k = (ms.reverse.find? (fun m => m.key = k)).map (·.value) := by
  have := Options.get_foldl ms [] k trivial
  simpa [Options.ofList, Options.get] using this

/-- C25 for foreign input: the announced size is not a bound. For every mapping that fits, an announced size of one
byte still makes the parser take the whole mapping. -/
theorem C25_announced_size_overrun_violated (E : Env) (m : Mapping) (r : Bytes)
    (h : m.key.length ≤ 255 ∧ m.value.length ≤ 255 ∧ E.utf8 m.key = true ∧ E.utf8 m.value = true) :
    Mapping.parseMulti E (be 2 1 ++ m.serialize ++ r) = some ([m], r) ∧ 1 < m.serialize.length := by
  have hb := Mapping.serializedLen_le (E := E) h
  constructor
  · have h0 : (be 2 1 ++ m.serialize ++ r).isEmpty = false := by simp [List.isEmpty_eq_false_iff, be]
    have e0 : 1 - m.serializedLen % 65536 = 0 := by rw [Nat.mod_eq_of_lt (by omega)]; omega
    unfold Mapping.parseMulti
    rw [h0]
    simp only [Bool.false_eq_true, if_false, List.append_assoc, beU_be, bind_some_pair,
      show 1 % 256 ^ 2 = 1 by decide]
    unfold Mapping.parseLoop
    simp only [Nat.one_ne_zero, if_false, Mapping.parse_serialize (E := E) h, bind_some_pair, e0]
    unfold Mapping.parseLoop
    rfl
  · rw [Mapping.serialize_length]; omega

example : Mapping.parseMulti Env.sample (Mapping.serializeMulti [⟨[1], [2, 3]⟩, ⟨[], [4]⟩] ++ [9])
    = some ([⟨[1], [2, 3]⟩, ⟨[], [4]⟩], [9]) := by decide +kernel

/-! ## C26 -/

/-- C26: for every byte string the destination parser accepts, the destination serializes to exactly the consumed
bytes, its reported length is their number, its id is their hash, and its key is an Ed25519 key in the last 32, a
P-256 key in the last 64 or a DSA key in the last 128 of the first 384 bytes, as the certificate says. -/
theorem C26_destination_parse_exact (E : Env) (i r : Bytes) (d : Destination)
    (h : Destination.parse E i = some (d, r)) :
    i = d.serialized ++ r ∧ d.serializedLen = d.serialized.length ∧ d.hash = E.sha256 d.serialized ∧
    E.keyOk d.key = true ∧
    ((d.key = .ed25519 ((i.take 384).drop 352) ∧ (i.drop 384).take 5 = [5, 0, 4, 0, 7]) ∨
     (d.key = .p256 ((i.take 384).drop 320) ∧ (i.drop 384).take 5 = [5, 0, 4, 0, 1]) ∨
     (d.key = .dsa ((i.take 384).drop 256) ∧ (i.drop 384).take 1 = [0])) := by
  unfold Destination.parse at h
  split at h
  · cases h
  unbind h with ⟨init, r1⟩ e1
  unbind h with ⟨ck, r2⟩ e2
  unbind h with ⟨cl, r3⟩ e3
  unbind h with ⟨⟨key, len⟩, r4⟩ e4
  simp only [Option.pure_def, Option.some.injEq, Prod.mk.injEq] at h
  obtain ⟨rfl, rfl⟩ := h
  obtain ⟨rfl, hi⟩ := takeN_some e1
  obtain ⟨rfl, _⟩ := beU_some e2
  obtain ⟨rfl, _⟩ := beU_some e3
  have ht : ∀ x : Bytes, (init ++ x).take 384 = init := fun x => List.take_left' hi
  have hd : ∀ x : Bytes, (init ++ x).drop 384 = x := fun x => List.drop_left' hi
  simp only [ht, hd]
  unfold Destination.parseCert at e4
  split at e4
  · rename_i hck
    subst hck
    unbind e4 with k f1
    simp only [Option.pure_def, Option.some.injEq, Prod.mk.injEq] at e4
    obtain ⟨⟨rfl, rfl⟩, rfl⟩ := e4
    obtain ⟨rfl, hk⟩ := Env.mkKey_some f1
    have h387 : (init ++ (be 1 0 ++ (be 2 cl ++ r3))).take 387 = init ++ (be 1 0 ++ be 2 cl) := by
      rw [← List.append_assoc (be 1 0), ← List.append_assoc init]
      exact List.take_left' (by simp [hi])
    refine ⟨by rw [h387]; simp, ?_, by trivial, hk, .inr (.inr ⟨rfl, by simp [be]⟩)⟩
    rw [h387]; simp [Destination.serializedLen, hi]
  · split at e4
    · rename_i _ hc
      obtain ⟨rfl, rfl⟩ := hc
      unbind e4 with ⟨sk, r5⟩ f1
      unbind e4 with ⟨pk, r6⟩ f2
      try simp only at f2 e4
      obtain ⟨rfl, _⟩ := beU_some f1
      obtain ⟨rfl, _⟩ := beU_some f2
      have h391 : (init ++ (be 1 5 ++ (be 2 4 ++ (be 2 sk ++ (be 2 pk ++ r6))))).take 391
          = init ++ (be 1 5 ++ (be 2 4 ++ (be 2 sk ++ be 2 pk))) := by
        rw [show init ++ (be 1 5 ++ (be 2 4 ++ (be 2 sk ++ (be 2 pk ++ r6))))
          = (init ++ (be 1 5 ++ (be 2 4 ++ (be 2 sk ++ be 2 pk)))) ++ r6 by simp]
        exact List.take_left' (by simp [hi])
      split at e4
      · rename_i hsk
        subst hsk
        unbind e4 with k f3
        simp only [Option.pure_def, Option.some.injEq, Prod.mk.injEq] at e4
        obtain ⟨⟨rfl, rfl⟩, rfl⟩ := e4
        obtain ⟨rfl, hk⟩ := Env.mkKey_some f3
        refine ⟨by rw [h391]; simp, ?_, by trivial, hk, .inl ⟨rfl, by simp [be]⟩⟩
        rw [h391]; simp [Destination.serializedLen, hi]
      · split at e4
        · rename_i hsk
          subst hsk
          unbind e4 with k f3
          simp only [Option.pure_def, Option.some.injEq, Prod.mk.injEq] at e4
          obtain ⟨⟨rfl, rfl⟩, rfl⟩ := e4
          obtain ⟨rfl, hk⟩ := Env.mkKey_some f3
          refine ⟨by rw [h391]; simp, ?_, by trivial, hk, .inr (.inl ⟨rfl, by simp [be]⟩)⟩
          rw [h391]; simp [Destination.serializedLen, hi]
        · cases e4
    · cases e4

/-- C26: the destination the router creates for an Ed25519 key parses back to itself. -/
theorem C26_new_destination_roundtrip (E : Env) (key padding r : Bytes) (hk : key.length = 32)
    (hp : padding.length = 352) (hv : E.keyOk (.ed25519 key) = true) :
    Destination.parse E ((Destination.new E key padding).serialized ++ r) = some (Destination.new E key padding, r) := by
  have hl : (padding ++ key).length = 384 := by simp [hp, hk]
  have hd : (padding ++ key).drop 352 = key := List.drop_left' hp
  have hassoc : ∀ x : Bytes, padding ++ (key ++ x) = (padding ++ key) ++ x := by simp
  unfold Destination.parse
  rw [if_neg (by simp [Destination.new, hp, hk]; omega)]
  simp only [Destination.new, List.append_assoc]
  rw [hassoc]
  simp only [takeN_append hl, bind_some_pair, beU_be, Destination.parseCert]
  simp only [show (5 % 256 ^ 1) = 5 by decide, show (4 % 256 ^ 2) = 4 by decide, show (7 % 256 ^ 2) = 7 by decide,
    show ¬ (5 = 0) by decide, if_false, and_self, if_true, hd, Env.mkKey_ok hv, bind_some_val]
  have ht : (padding ++ key ++ (be 1 5 ++ (be 2 4 ++ (be 2 7 ++ (be 2 0 ++ r))))).take 391
      = padding ++ key ++ (be 1 5 ++ (be 2 4 ++ (be 2 7 ++ be 2 0))) := by
    rw [show padding ++ key ++ (be 1 5 ++ (be 2 4 ++ (be 2 7 ++ (be 2 0 ++ r))))
      = (padding ++ key ++ (be 1 5 ++ (be 2 4 ++ (be 2 7 ++ be 2 0)))) ++ r by simp]
    exact List.take_left' (by simp [hp, hk])
  simp only [Option.pure_def, bind_some_pair, ht]
  simp

example : (Destination.parse Env.sample ((Destination.new Env.sample (List.replicate 32 1) (List.replicate 352 2)).serialized ++ [7])).isSome := by
  decide +kernel

/-! ## C27 -/

/-- C27: a router identity is accepted only with the X25519/Ed25519 key certificate; it consumes exactly 391 bytes,
serializes back to them, and its hash is their SHA-256. -/
theorem C27_router_identity_parse_exact (E : Env) (i r : Bytes) (id : RouterIdentity)
    (h : RouterIdentity.parse E i = some (id, r)) :
    i = id.serialize ++ r ∧ id.serialize.length = 391 ∧ (i.drop 384).take 7 = [5, 0, 4, 0, 7, 0, 4] ∧
    id.hash = E.sha256 id.serialize ∧ id.staticKey = i.take 32 ∧ id.signingKey = (i.drop 352).take 32 := by
  unfold RouterIdentity.parse at h
  split at h
  · cases h
  rename_i hlen
  unbind h with ⟨init, r1⟩ e1
  unbind h with ⟨ct, r2⟩ e2
  unbind h with ⟨cl, r3⟩ e3
  unbind h with ⟨st, r4⟩ e4
  unbind h with ⟨pt, r5⟩ e5
  try simp only at h
  split at h
  · rename_i hc
    obtain ⟨rfl, rfl, rfl, rfl⟩ := hc
    unbind h with k e6
    simp only [Option.pure_def, Option.some.injEq, Prod.mk.injEq] at h
    obtain ⟨rfl, rfl⟩ := h
    obtain ⟨rfl, hk⟩ := Env.mkKey_some e6
    obtain ⟨rfl, hi⟩ := takeN_some e1
    obtain ⟨rfl, _⟩ := beU_some e2
    obtain ⟨rfl, _⟩ := beU_some e3
    obtain ⟨rfl, _⟩ := beU_some e4
    obtain ⟨rfl, _⟩ := beU_some e5
    have hsplit : init.take 32 ++ (init.take 352).drop 32 ++ init.drop 352 = init := by
      have h1 : init.take 32 = (init.take 352).take 32 := by rw [List.take_take]; rfl
      rw [h1, List.take_append_drop, List.take_append_drop]
    have hser : (RouterIdentity.mk (init.take 32) ((init.take 352).drop 32) (init.drop 352)
        (E.sha256 ((init ++ (be 1 5 ++ (be 2 4 ++ (be 2 7 ++ (be 2 4 ++ r5))))).take 391))).serialize
        = init ++ be 1 5 ++ be 2 4 ++ be 2 7 ++ be 2 4 := by
      simp only [RouterIdentity.serialize]
      rw [hsplit]
    have h391 : (init ++ (be 1 5 ++ (be 2 4 ++ (be 2 7 ++ (be 2 4 ++ r5))))).take 391
        = init ++ be 1 5 ++ be 2 4 ++ be 2 7 ++ be 2 4 := by
      rw [show init ++ (be 1 5 ++ (be 2 4 ++ (be 2 7 ++ (be 2 4 ++ r5))))
        = (init ++ be 1 5 ++ be 2 4 ++ be 2 7 ++ be 2 4) ++ r5 by simp]
      exact List.take_left' (by simp [hi])
    simp only [VKey.bytes] at hser ⊢
    rw [hser]
    refine ⟨by simp, by simp [hi], ?_, by rw [h391], ?_, ?_⟩
    · rw [List.drop_left' hi]; simp [be]
    · rw [List.take_append_of_le_length (by omega)]
    · rw [List.drop_append_of_le_length (by omega), List.take_left' (by simp [hi])]
  · cases h

/-- C27: an identity made from keys parses back to itself. -/
theorem C27_new_identity_roundtrip (E : Env) (sk vk padding r : Bytes) (h1 : sk.length = 32)
    (h2 : padding.length = 320) (h3 : vk.length = 32) (hv : E.keyOk (.ed25519 vk) = true) :
    RouterIdentity.parse E ((RouterIdentity.fromKeys E sk vk padding).serialize ++ r)
      = some (RouterIdentity.fromKeys E sk vk padding, r) := by
  have hl : (sk ++ padding ++ vk).length = 384 := by simp [h1, h2, h3]
  have hd : (sk ++ padding ++ vk).drop 352 = vk := List.drop_left' (by simp [h1, h2])
  have hk : (sk ++ padding ++ vk).take 32 = sk := by rw [List.append_assoc]; exact List.take_left' h1
  have hm : ((sk ++ padding ++ vk).take 352).drop 32 = padding := by
    rw [List.take_left' (by simp [h1, h2]), List.drop_left' h1]
  unfold RouterIdentity.parse
  rw [if_neg (by simp [RouterIdentity.serialize, RouterIdentity.fromKeys, h1, h2, h3]; omega)]
  have hs : (RouterIdentity.fromKeys E sk vk padding).serialize ++ r
      = (sk ++ padding ++ vk) ++ (be 1 5 ++ (be 2 4 ++ (be 2 7 ++ (be 2 4 ++ r)))) := by
    simp [RouterIdentity.serialize, RouterIdentity.fromKeys]
  have ht : ((sk ++ padding ++ vk) ++ (be 1 5 ++ (be 2 4 ++ (be 2 7 ++ (be 2 4 ++ r))))).take 391
      = sk ++ padding ++ vk ++ be 1 5 ++ be 2 4 ++ be 2 7 ++ be 2 4 := by
    rw [show (sk ++ padding ++ vk) ++ (be 1 5 ++ (be 2 4 ++ (be 2 7 ++ (be 2 4 ++ r))))
      = (sk ++ padding ++ vk ++ be 1 5 ++ be 2 4 ++ be 2 7 ++ be 2 4) ++ r by simp]
    exact List.take_left' (by simp [h1, h2, h3])
  rw [hs]
  simp only [takeN_append hl, bind_some_pair, beU_be, ht, hk, hm, hd]
  simp only [show (5 % 256 ^ 1) = 5 by decide, show (4 % 256 ^ 2) = 4 by decide, show (7 % 256 ^ 2) = 7 by decide,
    and_self, if_true, Env.mkKey_ok hv, bind_some_val]
  rfl

example : (RouterIdentity.parse Env.sample ((RouterIdentity.fromKeys Env.sample (List.replicate 32 1)
    (List.replicate 32 3) (List.replicate 320 2)).serialize ++ [7])).isSome := by decide +kernel

/-! ## C28, C29: lease sets -/

theorem LeaseSet2.parseKeys_serialize (ks : List Bytes) (r : Bytes) (h : ∀ k ∈ ks, k.length = 32) :
    LeaseSet2.parseKeys ks.length ((ks.map (fun k => be 2 4 ++ be 2 32 ++ k)).flatten ++ r) = some (ks, r) := by
  induction ks with
  | nil => rfl
  | cons k t ih =>
    have hk := h k (by simp)
    have hk32 : takeN 32 (k ++ ((t.map (fun k => be 2 4 ++ (be 2 32 ++ k))).flatten ++ r))
        = some (k, (t.map (fun k => be 2 4 ++ (be 2 32 ++ k))).flatten ++ r) := takeN_append hk _
    have ih' := ih (fun x hx => h x (List.mem_cons_of_mem _ hx))
    simp only [List.append_assoc] at ih'
    simp only [List.length_cons, LeaseSet2.parseKeys, List.map_cons, List.flatten_cons, List.append_assoc, beU_be,
      bind_some_pair, show (32 % 256 ^ 2) = 32 by decide, show (4 % 256 ^ 2) = 4 by decide, hk32, hk, if_true, ih']
    rfl

/-- Whole seconds that fit 32 bits. -/
def Lease.Ok (l : Lease) : Prop :=
  l.router.length = 32 ∧ l.tunnelId < 2 ^ 32 ∧ l.expires / 1000000000 < 2 ^ 32

/-- A lease expiration as it comes back from the wire. -/
def Lease.truncate (l : Lease) : Lease := { l with expires := l.expires / 1000000000 * 1000000000 }

theorem Lease.parse2_serialize (l : Lease) (h : l.Ok) (r : Bytes) :
    Lease.parse2 (l.serialize2 ++ r) = some (l.truncate, r) := by
  obtain ⟨h1, h2, h3⟩ := h
  have e2 : l.tunnelId % 256 ^ 4 = l.tunnelId := Nat.mod_eq_of_lt (by omega)
  have e3 : (l.expires / 1000000000) % 256 ^ 4 = l.expires / 1000000000 := Nat.mod_eq_of_lt (by omega)
  simp only [Lease.parse2, Lease.serialize2, List.append_assoc, takeN_append h1, beU_be, bind_some_pair, e2, e3]
  rfl

theorem LeaseSet2.parseLeases_serialize (ls : List Lease) (r : Bytes) (h : ∀ l ∈ ls, l.Ok) :
    LeaseSet2.parseLeases ls.length ((ls.map Lease.serialize2).flatten ++ r) = some (ls.map Lease.truncate, r) := by
  induction ls with
  | nil => rfl
  | cons l t ih =>
    simp only [List.length_cons, LeaseSet2.parseLeases, List.map_cons, List.flatten_cons, List.append_assoc,
      Lease.parse2_serialize l (h l (by simp)), bind_some_pair, ih (fun x hx => h x (List.mem_cons_of_mem _ hx))]
    rfl

/-- C28 for lease sets as the router builds them, where `expires` is the offset from the publication time in
seconds: parsing the serialized lease set returns the same destination, publication time, encryption keys, leases
(to the second) and flag, and the expiration time `published + expires`, leaving any bytes that follow. -/
theorem C28_built_lease_set_roundtrip_partial (E : Env) (sign : Bytes → Bytes) (l : LeaseSet2) (r : Bytes)
    (key padding : Bytes) (hkey : key.length = 32) (hpad : padding.length = 352)
    (hdest : l.header.destination = Destination.new E key padding) (hok : E.keyOk (.ed25519 key) = true)
    (hoff : l.header.offline = none) (hpub : l.header.published < 2 ^ 32) (hexp : l.header.expires < 2 ^ 16)
    (hk : ∀ k ∈ l.keys, k.length = 32) (hk0 : l.keys ≠ []) (hkn : l.keys.length ≤ 255)
    (hl : ∀ x ∈ l.leases, x.router.length = 32 ∧ x.tunnelId < 2 ^ 32 ∧ x.expires / 1000000000 < 2 ^ 32)
    (hl0 : l.leases ≠ []) (hln : l.leases.length ≤ 16)
    (hsig : ∀ m, (sign m).length = 64) (hver : ∀ m, E.verify (.ed25519 key) m (sign m) = true) :
    LeaseSet2.parse E (l.serialize sign ++ r) = some
      ({ header := { l.header with
            expires := min (l.header.published + l.header.expires) (2 ^ 32 - 1) },
         keys := l.keys,
         leases := l.leases.map (fun x => { x with expires := x.expires / 1000000000 * 1000000000 }) }, r) := by
  obtain ⟨⟨dest, expires, off, pub, unpub⟩, keys, leases⟩ := l
  try simp only at hdest hoff hpub hexp hk hk0 hkn hl hl0 hln
  subst hdest hoff
  have a1 : pub % 256 ^ 4 = pub := Nat.mod_eq_of_lt (by omega)
  have a2 : expires % 256 ^ 2 = expires := Nat.mod_eq_of_lt (by omega)
  have a3 : keys.length % 256 ^ 1 = keys.length := Nat.mod_eq_of_lt (by omega)
  have a4 : leases.length % 256 ^ 1 = leases.length := Nat.mod_eq_of_lt (by omega)
  have a5 : (if unpub then 2 else 0) % 256 ^ 2 = if unpub then 2 else 0 := by cases unpub <;> rfl
  have a6 : (if unpub then 2 else 0) % 2 = 0 := by cases unpub <;> rfl
  have a7 : decide ((if unpub then 2 else 0) / 2 % 2 = 1) = unpub := by cases unpub <;> rfl
  have b1 : keys.isEmpty = false := by simp [hk0]
  have b2 : ¬ (leases.length > 16 ∨ leases.length = 0) := by
    have := List.length_pos_iff.mpr hl0; omega
  generalize hd : Destination.new E key padding = d
  have hparse : ∀ x, Destination.parse E (d.serialized ++ x) = some (d, x) := by
    intro x; rw [← hd]; exact C26_new_destination_roundtrip E key padding x hkey hpad hok
  have hdk : d.key = .ed25519 key := by rw [← hd]; rfl
  generalize hbody : (LeaseSet2.mk ⟨d, expires, none, pub, unpub⟩ keys leases).body = body
  have hheader : ∀ x, LsHeader.parse E ((LsHeader.mk d expires none pub unpub).serialize ++ x)
      = some ({ destination := d, expires := min (pub + expires) (2 ^ 32 - 1), offline := none,
                published := pub, unpublished := unpub }, x) := by
    intro x
    simp only [LsHeader.parse, LsHeader.serialize, List.append_assoc, hparse, bind_some_pair, beU_be, a1, a2, a5,
      LsHeader.parseOffline, a6, if_true, a7]
    rfl
  have hmap : ∀ x, Mapping.parseMulti E (be 2 0 ++ x) = some ([], x) := by
    intro x
    have := Mapping.parseMulti_serialize (E := E) [] (by simp) (by simp) x
    simpa [Mapping.serializeMulti] using this
  have hsplit : LeaseSet2.serialize sign (LeaseSet2.mk ⟨d, expires, none, pub, unpub⟩ keys leases) ++ r
      = body ++ (sign (be 1 3 ++ body) ++ r) := by
    simp [LeaseSet2.serialize, hbody]
  have hcheck : LeaseSet2.checkSig E
      { destination := d, expires := min (pub + expires) (2 ^ 32 - 1), offline := none,
        published := pub, unpublished := unpub } (body ++ (sign (be 1 3 ++ body) ++ r))
      (sign (be 1 3 ++ body) ++ r) = some ((), r) := by
    have hs := hsig (be 1 3 ++ body)
    have ht : (body ++ (sign (be 1 3 ++ body) ++ r)).take
        ((body ++ (sign (be 1 3 ++ body) ++ r)).length - r.length - 64) = body := by
      apply List.take_left'
      simp [hs]; omega
    simp only [LeaseSet2.checkSig, hdk, VKey.sigLen, takeN_append hs, bind_some_pair, ht, Option.getD_none,
      Env.check_ok (hver _)]
    rfl
  rw [hsplit]
  have hbody' : ∀ x, body ++ x = (LsHeader.mk d expires none pub unpub).serialize ++ (be 2 0 ++ (be 1 keys.length ++
      ((keys.map (fun k => be 2 4 ++ be 2 32 ++ k)).flatten ++ (be 1 leases.length ++
      ((leases.map Lease.serialize2).flatten ++ x))))) := by
    intro x; rw [← hbody]; simp only [LeaseSet2.body, List.append_assoc]
  unfold LeaseSet2.parse
  conv => lhs; rw [hbody' (sign (be 1 3 ++ body) ++ r)]
  simp only [hheader, bind_some_pair, hmap, beU_be, a3, a4,
    LeaseSet2.parseKeys_serialize keys _ hk, b1, Bool.false_eq_true, if_false, if_neg b2,
    LeaseSet2.parseLeases_serialize leases _ hl]
  rw [← hbody', hcheck]
  rfl

/-- C28 is violated for lease sets taken from the network: there `expires` is the absolute time, and serializing
writes its low 16 bits as if they were the offset. Whatever the (unexpired) lease set, re-parsing its serialization
gives back the same expiration only if the publication time happens to be a multiple of 65536 seconds. -/
theorem C28_parsed_lease_set_expiry_changes_violated (E : Env) (h : LsHeader) (off : Nat) (r : Bytes)
    (hdest : ∀ x, Destination.parse E (h.destination.serialized ++ x) = some (h.destination, x))
    (hpub : h.published < 2 ^ 32 - 2 ^ 16) (hoff : off < 2 ^ 16) (hexp : h.expires = h.published + off)
    (hmul : h.published % 65536 ≠ 0) :
    ∃ h' , LsHeader.parse E (h.serialize ++ r) = some (h', r) ∧ h'.expires ≠ h.expires := by
  obtain ⟨dest, expires, o, pub, unpub⟩ := h
  try simp only at hdest hpub hexp hmul
  have a1 : pub % 256 ^ 4 = pub := Nat.mod_eq_of_lt (by omega)
  have a5 : (if unpub then 2 else 0) % 256 ^ 2 = if unpub then 2 else 0 := by cases unpub <;> rfl
  have a6 : (if unpub then 2 else 0) % 2 = 0 := by cases unpub <;> rfl
  refine ⟨_, by
    simp only [LsHeader.parse, LsHeader.serialize, List.append_assoc, hdest, bind_some_pair, beU_be, a1, a5,
      LsHeader.parseOffline, a6, if_true]
    rfl, ?_⟩
  simp only
  subst hexp
  omega

theorem takeN_suffix {k : Nat} {i l r : Bytes} (h : takeN k i = some (l, r)) : r <:+ i :=
  (takeN_some h).1 ▸ List.suffix_append _ _
theorem beU_suffix {k n : Nat} {i r : Bytes} (h : beU k i = some (n, r)) : r <:+ i :=
  (beU_some h).1 ▸ List.suffix_append _ _

theorem LeaseSet2.parseKeys_suffix {n : Nat} {i r : Bytes} {ks : List Bytes}
    (h : LeaseSet2.parseKeys n i = some (ks, r)) : r <:+ i ∧ ∀ k ∈ ks, k.length = 32 := by
  induction n generalizing i ks with
  | zero =>
    simp only [LeaseSet2.parseKeys, Option.some.injEq, Prod.mk.injEq] at h
    obtain ⟨rfl, rfl⟩ := h; exact ⟨List.suffix_refl _, by simp⟩
  | succ n ih =>
    simp only [LeaseSet2.parseKeys] at h
    unbind h with ⟨kind, r1⟩ e1
    unbind h with ⟨len, r2⟩ e2
    unbind h with ⟨key, r3⟩ e3
    have hs := (takeN_suffix e3).trans ((beU_suffix e2).trans (beU_suffix e1))
    try simp only at h hs
    split at h
    · split at h
      · rename_i _ hk
        unbind h with ⟨t, r4⟩ e4
        simp only [Option.pure_def, Option.some.injEq, Prod.mk.injEq] at h
        obtain ⟨rfl, rfl⟩ := h
        have := ih e4
        refine ⟨this.1.trans hs, ?_⟩
        intro k hk'
        rcases List.mem_cons.mp hk' with rfl | hk'
        · exact hk
        · exact this.2 k hk'
      · cases h
    · exact ⟨(ih h).1.trans hs, (ih h).2⟩

theorem LeaseSet2.parseLeases_suffix {n : Nat} {i r : Bytes} {ls : List Lease}
    (h : LeaseSet2.parseLeases n i = some (ls, r)) : r <:+ i ∧ ls.length = n := by
  induction n generalizing i ls with
  | zero =>
    simp only [LeaseSet2.parseLeases, Option.some.injEq, Prod.mk.injEq] at h
    obtain ⟨rfl, rfl⟩ := h; exact ⟨List.suffix_refl _, rfl⟩
  | succ n ih =>
    simp only [LeaseSet2.parseLeases] at h
    unbind h with ⟨l, r1⟩ e1
    unbind h with ⟨t, r2⟩ e2
    simp only [Option.pure_def, Option.some.injEq, Prod.mk.injEq] at h
    obtain ⟨rfl, rfl⟩ := h
    simp only [Lease.parse2] at e1
    unbind e1 with ⟨a, q1⟩ f1
    unbind e1 with ⟨b, q2⟩ f2
    unbind e1 with ⟨c, q3⟩ f3
    simp only [Option.pure_def, Option.some.injEq, Prod.mk.injEq] at e1
    obtain ⟨_, rfl⟩ := e1
    have hs := (beU_suffix f3).trans ((beU_suffix f2).trans (takeN_suffix f1))
    exact ⟨(ih e2).1.trans hs, by simp [(ih e2).2]⟩

/-- A transient key certified by `key`: expiration, key kind and key bytes, followed by a signature by `key` over
exactly those bytes. -/
def Certified (E : Env) (key tkey : VKey) (bytes : Bytes) : Prop :=
  ∃ exp kind sig, ((kind = 7 ∧ ∃ b, tkey = .ed25519 b ∧ b.length = 32) ∨
                   (kind = 1 ∧ ∃ b, tkey = .p256 b ∧ b.length = 64)) ∧
    bytes = be 4 exp ++ be 2 kind ++ tkey.bytes ++ sig ∧
    E.verify key (be 4 exp ++ be 2 kind ++ tkey.bytes) sig = true

theorem OfflineSignature.parse_some {E : Env} {key t : VKey} {i r : Bytes}
    (h : OfflineSignature.parse E key i = some (t, r)) : ∃ c, i = c ++ r ∧ Certified E key t c := by
  simp only [OfflineSignature.parse] at h
  unbind h with ⟨exp, r1⟩ e1
  unbind h with ⟨kind, r2⟩ e2
  unbind h with ⟨⟨tk, kl⟩, r3⟩ e3
  unbind h with ⟨sig, r4⟩ e4
  unbind h with u e5
  simp only [Option.pure_def, Option.some.injEq, Prod.mk.injEq] at h
  obtain ⟨rfl, rfl⟩ := h
  try simp only at e2 e3 e4 e5
  obtain ⟨rfl, _⟩ := beU_some e1
  obtain ⟨rfl, _⟩ := beU_some e2
  obtain ⟨rfl, _⟩ := takeN_some e4
  have hv := Env.check_some e5
  unfold OfflineSignature.parseKey at e3
  split at e3
  · rename_i hk
    subst hk
    unbind e3 with ⟨k, q1⟩ f1
    unbind e3 with k' f2
    simp only [Option.pure_def, Option.some.injEq, Prod.mk.injEq] at e3
    obtain ⟨⟨rfl, rfl⟩, rfl⟩ := e3
    obtain ⟨rfl, hk⟩ := Env.mkKey_some f2
    obtain ⟨rfl, hl⟩ := takeN_some f1
    have ht : (be 4 exp ++ (be 2 7 ++ (k ++ (sig ++ r4)))).take (6 + 32) = be 4 exp ++ be 2 7 ++ k := by
      rw [show be 4 exp ++ (be 2 7 ++ (k ++ (sig ++ r4))) = (be 4 exp ++ be 2 7 ++ k) ++ (sig ++ r4) by simp]
      exact List.take_left' (by simp [hl])
    rw [ht] at hv
    exact ⟨be 4 exp ++ be 2 7 ++ k ++ sig, by simp, exp, 7, sig, .inl ⟨rfl, k, rfl, hl⟩, rfl, hv⟩
  · split at e3
    · rename_i hk
      subst hk
      unbind e3 with ⟨k, q1⟩ f1
      unbind e3 with k' f2
      simp only [Option.pure_def, Option.some.injEq, Prod.mk.injEq] at e3
      obtain ⟨⟨rfl, rfl⟩, rfl⟩ := e3
      obtain ⟨rfl, hk⟩ := Env.mkKey_some f2
      obtain ⟨rfl, hl⟩ := takeN_some f1
      have ht : (be 4 exp ++ (be 2 1 ++ (k ++ (sig ++ r4)))).take (6 + 64) = be 4 exp ++ be 2 1 ++ k := by
        rw [show be 4 exp ++ (be 2 1 ++ (k ++ (sig ++ r4))) = (be 4 exp ++ be 2 1 ++ k) ++ (sig ++ r4) by simp]
        exact List.take_left' (by simp [hl])
      rw [ht] at hv
      exact ⟨be 4 exp ++ be 2 1 ++ k ++ sig, by simp, exp, 1, sig, .inr ⟨rfl, k, rfl, hl⟩, rfl, hv⟩
    · cases e3

/-- C29: every accepted lease set splits into the signed bytes, the signature and the bytes left over; the signed
bytes start with the destination it reports; and the signature verifies over the type byte 3 and all signed bytes
under that destination's key, or under a transient key contained in the signed bytes together with a valid
signature by the destination's key. It has at least one encryption key and 1 to 16 leases. -/
theorem C29_lease_set_signature (E : Env) (i r : Bytes) (l : LeaseSet2) (h : LeaseSet2.parse E i = some (l, r)) :
    ∃ signed sig, i = signed ++ sig ++ r ∧ l.header.destination.serialized <+: signed ∧
      (∃ q, Destination.parse E i = some (l.header.destination, q)) ∧
      ((l.header.offline = none ∧ E.verify l.header.destination.key (3 :: signed) sig = true) ∨
       (∃ tkey cert, l.header.offline = some tkey ∧ cert <:+: signed ∧
         Certified E l.header.destination.key tkey cert ∧ E.verify tkey (3 :: signed) sig = true)) ∧
      l.keys ≠ [] ∧ (∀ k ∈ l.keys, k.length = 32) ∧ 1 ≤ l.leases.length ∧ l.leases.length ≤ 16 := by
  simp only [LeaseSet2.parse] at h
  unbind h with ⟨hd, r1⟩ e1
  unbind h with ⟨ms, r2⟩ e2
  unbind h with ⟨n, r3⟩ e3
  unbind h with ⟨ks, r4⟩ e4
  try simp only at h e2 e3 e4
  split at h
  · cases h
  rename_i hks
  unbind h with ⟨m, r5⟩ e5
  try simp only at h
  split at h
  · cases h
  rename_i hm
  unbind h with ⟨ls, r6⟩ e6
  unbind h with ⟨u, r7⟩ e7
  simp only [Option.pure_def, Option.some.injEq, Prod.mk.injEq] at h
  obtain ⟨rfl, rfl⟩ := h
  try simp only at e6 e7 ⊢
  simp only [LeaseSet2.checkSig] at e7
  unbind e7 with ⟨sig, r8⟩ f1
  unbind e7 with u' f2
  simp only [Option.pure_def, Option.some.injEq, Prod.mk.injEq] at e7
  obtain ⟨_, rfl⟩ := e7
  try simp only at f2
  have hv := Env.check_some f2
  obtain ⟨rfl, hsl⟩ := takeN_some f1
  have hks' := LeaseSet2.parseKeys_suffix e4
  have hls' := LeaseSet2.parseLeases_suffix e6
  have hsuf : (sig ++ r8) <:+ r1 :=
    hls'.1.trans ((beU_suffix e5).trans (hks'.1.trans ((beU_suffix e3).trans (Mapping.parseMulti_suffix e2))))
  -- header
  simp only [LsHeader.parse] at e1
  unbind e1 with ⟨dest, q1⟩ g1
  unbind e1 with ⟨pub, q2⟩ g2
  unbind e1 with ⟨ex, q3⟩ g3
  unbind e1 with ⟨fl, q4⟩ g4
  unbind e1 with ⟨off, q5⟩ g5
  simp only [Option.pure_def, Option.some.injEq, Prod.mk.injEq] at e1
  obtain ⟨rfl, rfl⟩ := e1
  try simp only at g2 g3 g4 g5 hv hsl ⊢
  have hdest := C26_destination_parse_exact E i q1 dest g1
  obtain ⟨x2, rfl⟩ : ∃ x, q1 = x ++ q4 := by
    obtain ⟨rfl, _⟩ := beU_some g2
    obtain ⟨rfl, _⟩ := beU_some g3
    obtain ⟨rfl, _⟩ := beU_some g4
    exact ⟨be 4 pub ++ be 2 ex ++ be 2 fl, by simp⟩
  obtain ⟨pre, hpre⟩ := hsuf
  obtain ⟨c, hc, hcert⟩ : ∃ c, q4 = c ++ q5 ∧ ((off = none) ∨ ∃ t, off = some t ∧ Certified E dest.key t c) := by
    unfold LsHeader.parseOffline at g5
    split at g5
    · simp only [Option.some.injEq, Prod.mk.injEq] at g5
      exact ⟨[], by simp [g5.2], .inl g5.1.symm⟩
    · unbind g5 with ⟨t, p1⟩ k1
      simp only [Option.pure_def, Option.some.injEq, Prod.mk.injEq] at g5
      obtain ⟨rfl, rfl⟩ := g5
      obtain ⟨c, hc, hcert⟩ := OfflineSignature.parse_some k1
      exact ⟨c, hc, .inr ⟨t, rfl, hcert⟩⟩
  have hi : i = (dest.serialized ++ x2 ++ c ++ pre) ++ (sig ++ r8) := by
    rw [hdest.1, hc, ← hpre]; simp
  have ht : i.take (i.length - r8.length - dest.key.sigLen) = dest.serialized ++ x2 ++ c ++ pre := by
    rw [hi]
    apply List.take_left'
    simp only [List.length_append]
    omega
  rw [ht] at hv
  have h3 : be 1 3 = [3] := by decide
  rw [h3] at hv
  refine ⟨dest.serialized ++ x2 ++ c ++ pre, sig, by rw [hi]; simp, ?_, ⟨_, g1⟩, ?_, ?_, hks'.2, ?_, ?_⟩
  · rw [List.append_assoc, List.append_assoc]; exact List.prefix_append _ _
  · rcases hcert with rfl | ⟨t, rfl, hct⟩
    · exact .inl ⟨rfl, hv⟩
    · refine .inr ⟨t, c, rfl, ⟨dest.serialized ++ x2, pre, rfl⟩, hct, hv⟩
  · intro he; simp [he] at hks
  · rw [hls'.2]; omega
  · rw [hls'.2]; omega

/-- A concrete lease set that meets the hypotheses of C28 and is accepted. -/
def LeaseSet2.sample : LeaseSet2 :=
  { header := { destination := Destination.new Env.sample (List.replicate 32 1) (List.replicate 352 2),
                expires := 600, offline := none, published := 100000, unpublished := false }
    keys := [List.replicate 32 5]
    leases := [⟨List.replicate 32 6, 77, 100600000000000⟩, ⟨List.replicate 32 7, 78, 100500000000000⟩] }

example : (LeaseSet2.parse Env.sample
    (LeaseSet2.sample.serialize (fun m => UInt8.ofNat m.length :: List.replicate 63 0) ++ [1, 2, 3])).isSome = true := by
  decide +kernel

end Emissary.Prim
