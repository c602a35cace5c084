import Verif.Props.Primitives
/-!
# Properties of router infos, offline signatures and lease set expiry (C57–C60)
-/
namespace Emissary.Prim
open Emissary

/-! ## C57: router info round trip -/

/-- Options as they occur in a value: one entry per key (listed in key order), each key and value valid text of at
most 255 bytes, and the whole at most 65535 bytes on the wire. -/
def Options.Ok (E : Env) (o : Options) : Prop :=
  Options.Sorted o ∧
  (∀ m ∈ o, m.key.length ≤ 255 ∧ m.value.length ≤ 255 ∧ E.utf8 m.key = true ∧ E.utf8 m.value = true) ∧
  ((o.map Mapping.serialize).flatten).length < 65536

/-- An address value whose cached socket address agrees with its options. -/
def RouterAddress.Ok (E : Env) (a : RouterAddress) : Prop :=
  a.cost < 256 ∧ a.expires < 2 ^ 64 ∧ a.options.Ok E ∧ a.socket = socketOf E a.options

theorem Options.parse_ok {E : Env} {o : Options} (h : o.Ok E) (r : Bytes) :
    Mapping.parseMulti E (Mapping.serializeMulti o ++ r) = some (o, r) := by
  obtain ⟨_, h2, h3⟩ := h
  rw [Mapping.flatten_length] at h3
  exact Mapping.parseMulti_serialize o h2 h3 r

theorem Transport.ofStr_self (t : Transport) (E : Env) (r : Bytes)
    (hu : E.utf8 [0x4e, 0x54, 0x43, 0x50, 0x32] = true ∧ E.utf8 [0x53, 0x53, 0x55, 0x32] = true) :
    ∃ s, Str.parse E (t.serialize ++ r) = some (s, r) ∧ Transport.ofStr s = some t := by
  cases t with
  | ntcp2 => exact ⟨_, Str.parse_serialize (by decide) hu.1 r, by decide⟩
  | ssu2 => exact ⟨_, Str.parse_serialize (by decide) hu.2 r, by decide⟩

/-- C57, router address: parsing a serialized address returns it, whatever follows. -/
theorem C57_router_address_roundtrip (E : Env) (a : RouterAddress) (r : Bytes) (h : a.Ok E)
    (hu : E.utf8 [0x4e, 0x54, 0x43, 0x50, 0x32] = true ∧ E.utf8 [0x53, 0x53, 0x55, 0x32] = true) :
    RouterAddress.parse E (a.serialize ++ r) = some (a, r) := by
  obtain ⟨cost, exp, t, o, sock⟩ := a
  obtain ⟨h1, h2, h3, h4⟩ := h
  simp only at h1 h2 h3 h4
  have e1 : cost % 256 ^ 1 = cost := Nat.mod_eq_of_lt (by omega)
  have e2 : exp % 256 ^ 8 = exp := Nat.mod_eq_of_lt (by omega)
  obtain ⟨s, hs, ht⟩ := Transport.ofStr_self t E (Mapping.serializeMulti o ++ r) hu
  simp only [RouterAddress.parse, RouterAddress.serialize, List.append_assoc, beU_be, bind_some_pair, e1, e2, hs,
    Options.parse_ok h3, ht, bind_some_val, Options.ofList_sorted h3.1, ← h4]
  rfl

/-- C57: parsing a serialized router info returns the same identity, publication time, addresses, options,
capabilities and network id. -/
theorem C57_router_info_roundtrip (E : Env) (sign : Bytes → Bytes) (ri : RouterInfo) (out : Bytes)
    (sk vk padding : Bytes) (h1 : sk.length = 32) (h2 : padding.length = 320) (h3 : vk.length = 32)
    (hv : E.keyOk (.ed25519 vk) = true) (hid : ri.identity = RouterIdentity.fromKeys E sk vk padding)
    (hpub : ri.published < 2 ^ 64) (hopt : ri.options.Ok E)
    (ha : ∀ a, ri.addresses.ntcp2 = some a → a.Ok E ∧ a.transport = .ntcp2)
    (hb : ∀ a, ri.addresses.ssu2 = some a → a.Ok E ∧ a.transport = .ssu2)
    (hcaps : ∃ c, ri.options.get kCaps = some c ∧ ri.capabilities = Capabilities.parse c)
    (hnet : ∃ n, ri.options.get kNetId = some n ∧ parseUInt 255 n = some ri.netId)
    (hu : E.utf8 [0x4e, 0x54, 0x43, 0x50, 0x32] = true ∧ E.utf8 [0x53, 0x53, 0x55, 0x32] = true)
    (hsig : ∀ m, (sign m).length = 64) (hver : ∀ m, E.verify (.ed25519 vk) m (sign m) = true)
    (hout : ri.serialize sign = some out) :
    ∃ q, RouterInfo.parse E out = some (ri, q) := by
  obtain ⟨⟨an, as⟩, caps, ident, net, opts, pub⟩ := ri
  simp only at hid hpub hopt ha hb hcaps hnet
  subst hid
  obtain ⟨c, hc, rfl⟩ := hcaps
  obtain ⟨n, hn, hnet⟩ := hnet
  have ep : pub % 256 ^ 8 = pub := Nat.mod_eq_of_lt (by omega)
  simp only [RouterInfo.serialize] at hout
  unbind hout with ab ea
  simp only [Option.pure_def, Option.some.injEq] at hout
  subst hout
  generalize hbody : (RouterIdentity.fromKeys E sk vk padding).serialize ++ be 8 pub ++ ab ++ be 1 0
      ++ Mapping.serializeMulti opts = body
  have hident : ∀ x, RouterIdentity.parse E ((RouterIdentity.fromKeys E sk vk padding).serialize ++ x)
      = some (RouterIdentity.fromKeys E sk vk padding, x) :=
    fun x => C27_new_identity_roundtrip E sk vk padding x h1 h2 h3 hv
  have haddr : ∃ k abody, ab = be 1 k ++ abody ∧ k < 256 ∧
      ∀ x, RouterInfo.parseAddrs E k ⟨none, none⟩ (abody ++ x) = some (⟨an, as⟩, x) := by
    cases an with
    | some a =>
      obtain ⟨hao, hat⟩ := ha a rfl
      cases as with
      | some b =>
        obtain ⟨hbo, hbt⟩ := hb b rfl
        simp only [Addresses.serialize, Option.some.injEq] at ea
        refine ⟨2, a.serialize ++ b.serialize, by rw [← ea]; simp, by decide, fun x => ?_⟩
        simp only [RouterInfo.parseAddrs, List.append_assoc, C57_router_address_roundtrip E a _ hao hu,
          C57_router_address_roundtrip E b _ hbo hu, bind_some_pair, Addresses.insert, hat, hbt, preferAddr]
      | none =>
        simp only [Addresses.serialize, Option.some.injEq] at ea
        refine ⟨1, a.serialize, by rw [← ea], by decide, fun x => ?_⟩
        simp only [RouterInfo.parseAddrs, C57_router_address_roundtrip E a _ hao hu, bind_some_pair,
          Addresses.insert, hat, preferAddr]
    | none =>
      cases as with
      | some b =>
        obtain ⟨hbo, hbt⟩ := hb b rfl
        simp only [Addresses.serialize, Option.some.injEq] at ea
        refine ⟨1, b.serialize, by rw [← ea], by decide, fun x => ?_⟩
        simp only [RouterInfo.parseAddrs, C57_router_address_roundtrip E b _ hbo hu, bind_some_pair,
          Addresses.insert, hbt, preferAddr]
      | none => simp [Addresses.serialize] at ea
  obtain ⟨k, abody, rfl, hk, haddr⟩ := haddr
  have ek : k % 256 ^ 1 = k := Nat.mod_eq_of_lt (by omega)
  have hbody' : ∀ x, body ++ x = (RouterIdentity.fromKeys E sk vk padding).serialize ++ (be 8 pub ++ (be 1 k ++
      (abody ++ (be 1 0 ++ (Mapping.serializeMulti opts ++ x))))) := by
    intro x; rw [← hbody]; simp only [List.append_assoc]
  have ht : (body ++ sign body).take ((body ++ sign body).length - 64) = body := by
    apply List.take_left'
    simp [hsig]
  refine ⟨sign body, ?_⟩
  unfold RouterInfo.parse
  rw [ht]
  conv => lhs; rw [hbody' (sign body)]
  simp only [hident, bind_some_pair, beU_be, ep, ek, haddr, Options.parse_ok hopt, Options.ofList_sorted hopt.1,
    hc, bind_some_val, hn, hnet]
  have : (RouterIdentity.fromKeys E sk vk padding).signingKey = vk := rfl
  rw [this, Env.check_ok (hver body)]
  rfl

/-! ## C58: router info signature -/

theorem RouterAddress.parse_suffix {E : Env} {i r : Bytes} {a : RouterAddress}
    (h : RouterAddress.parse E i = some (a, r)) : r <:+ i := by
  simp only [RouterAddress.parse] at h
  unbind h with ⟨cost, r1⟩ e1
  unbind h with ⟨ex, r2⟩ e2
  unbind h with ⟨nm, r3⟩ e3
  unbind h with ⟨os, r4⟩ e4
  unbind h with t e5
  simp only [Option.pure_def, Option.some.injEq, Prod.mk.injEq] at h
  obtain ⟨_, rfl⟩ := h
  exact (Mapping.parseMulti_suffix e4).trans
    (((Str.parse_some e3).1 ▸ List.suffix_append _ _ : r3 <:+ r2).trans ((beU_suffix e2).trans (beU_suffix e1)))

theorem RouterInfo.parseAddrs_suffix {E : Env} {n : Nat} {s s' : Addresses} {i r : Bytes}
    (h : RouterInfo.parseAddrs E n s i = some (s', r)) : r <:+ i := by
  induction n generalizing s i with
  | zero => simp only [RouterInfo.parseAddrs, Option.some.injEq, Prod.mk.injEq] at h; rw [h.2]; exact List.suffix_refl _
  | succ n ih =>
    simp only [RouterInfo.parseAddrs] at h
    unbind h with ⟨a, r1⟩ e1
    exact (ih h).trans (RouterAddress.parse_suffix e1)

/-- C58: provided Ed25519 verification accepts only 64-byte signatures, every accepted router info is its signed
bytes followed by exactly a 64-byte signature that verifies over all of them under the signing key inside its own
identity, the identity is the first 391 bytes, and nothing may follow the signature. -/
theorem C58_router_info_signature (E : Env) (i q : Bytes) (ri : RouterInfo)
    (hlen : ∀ k m s, E.verify (.ed25519 k) m s = true → s.length = 64)
    (h : RouterInfo.parse E i = some (ri, q)) :
    ∃ signed sig, i = signed ++ sig ∧ sig.length = 64 ∧ ri.identity.serialize <+: signed ∧
      E.verify (.ed25519 ri.identity.signingKey) signed sig = true ∧ ri.identity.hash = E.sha256 (i.take 391) := by
  simp only [RouterInfo.parse] at h
  unbind h with ⟨id, r1⟩ e1
  unbind h with ⟨pub, r2⟩ e2
  unbind h with ⟨n, r3⟩ e3
  unbind h with ⟨ad, r4⟩ e4
  unbind h with ⟨z, r5⟩ e5
  unbind h with ⟨os, r6⟩ e6
  unbind h with c e7
  unbind h with nt e8
  unbind h with ni e9
  unbind h with u e10
  simp only [Option.pure_def, Option.some.injEq, Prod.mk.injEq] at h
  obtain ⟨rfl, rfl⟩ := h
  have hv := Env.check_some e10
  have hl := hlen _ _ _ hv
  have hi := C27_router_identity_parse_exact E i r1 id e1
  have hsuf : r6 <:+ r1 := (Mapping.parseMulti_suffix e6).trans ((beU_suffix e5).trans
    ((RouterInfo.parseAddrs_suffix e4).trans ((beU_suffix e3).trans (beU_suffix e2))))
  obtain ⟨pre, hpre⟩ := hsuf
  have hi' : i = (id.serialize ++ pre) ++ r6 := by rw [hi.1, ← hpre]; simp
  have ht : i.take (i.length - 64) = id.serialize ++ pre := by
    rw [hi']; apply List.take_left'; simp only [List.length_append]; omega
  rw [ht] at hv
  refine ⟨id.serialize ++ pre, r6, hi', hl, List.prefix_append _ _, hv, ?_⟩
  rw [hi.2.2.2.1]
  congr 1
  rw [hi.1]
  exact (List.take_left' hi.2.1).symm

/-! ## C59: offline signatures -/

/-- C59, the part that holds: an accepted transient key carries a valid signature by the destination's key over its
expiration, kind and key bytes. -/
theorem C59_transient_key_is_certified_partial (E : Env) (key t : VKey) (i r : Bytes)
    (h : OfflineSignature.parse E key i = some (t, r)) : ∃ c, i = c ++ r ∧ Certified E key t c :=
  OfflineSignature.parse_some h

/-- C59, the part that holds: a transient Ed25519 key certified by an Ed25519 or P-256 destination is accepted. -/
theorem C59_certified_transient_key_accepted_partial (E : Env) (key : VKey) (exp : Nat) (k sig r : Bytes)
    (hk : k.length = 32) (hs : sig.length = 64) (hok : E.keyOk (.ed25519 k) = true)
    (hv : E.verify key (be 4 exp ++ be 2 7 ++ k) sig = true) :
    OfflineSignature.parse E key (be 4 exp ++ be 2 7 ++ k ++ sig ++ r) = some (.ed25519 k, r) := by
  have ht : (be 4 exp ++ (be 2 7 ++ (k ++ (sig ++ r)))).take (6 + 32) = be 4 exp ++ (be 2 7 ++ k) := by
    rw [show be 4 exp ++ (be 2 7 ++ (k ++ (sig ++ r))) = (be 4 exp ++ (be 2 7 ++ k)) ++ (sig ++ r) by simp]
    exact List.take_left' (by simp [hk])
  rw [List.append_assoc] at hv
  simp only [OfflineSignature.parse, List.append_assoc, beU_be, bind_some_pair,
    show 7 % 256 ^ 2 = 7 by decide, OfflineSignature.parseKey, if_true, takeN_append hk, Env.mkKey_ok hok,
    bind_some_val, Option.pure_def, VKey.sigLen, takeN_append hs, ht, Env.check_ok hv]

/-- C59 is violated: an expired transient key is accepted. Whatever the current time, a certificate that expired at
the epoch (expiration 0) is accepted like any other. -/
theorem C59_expired_transient_key_accepted_violated (E : Env) (key : VKey) (k sig r : Bytes)
    (hk : k.length = 32) (hs : sig.length = 64) (hok : E.keyOk (.ed25519 k) = true)
    (hv : E.verify key (be 4 0 ++ be 2 7 ++ k) sig = true) :
    OfflineSignature.parse E key (be 4 0 ++ be 2 7 ++ k ++ sig ++ r) = some (.ed25519 k, r) :=
  C59_certified_transient_key_accepted_partial E key 0 k sig r hk hs hok hv

/-- C59 is violated: a destination with a DSA key can never use a transient key, because the signature length is
taken from the transient key (64 bytes) instead of the destination's (40 bytes). -/
theorem C59_dsa_destination_never_accepted_violated (E : Env) (k i : Bytes)
    (hlen : ∀ m s, E.verify (.dsa k) m s = true → s.length = 40) :
    OfflineSignature.parse E (.dsa k) i = none := by
  cases h : OfflineSignature.parse E (.dsa k) i with
  | none => rfl
  | some v =>
    exfalso
    obtain ⟨t, r⟩ := v
    simp only [OfflineSignature.parse] at h
    unbind h with ⟨exp, r1⟩ e1
    unbind h with ⟨kind, r2⟩ e2
    unbind h with ⟨⟨tk, kl⟩, r3⟩ e3
    unbind h with ⟨sig, r4⟩ e4
    unbind h with u e5
    have h40 := hlen _ _ (Env.check_some e5)
    have h64 := (takeN_some e4).2
    have : tk.sigLen = 64 := by
      unfold OfflineSignature.parseKey at e3
      split at e3
      · unbind e3 with ⟨k', q⟩ f1
        unbind e3 with k'' f2
        simp only [Option.pure_def, Option.some.injEq, Prod.mk.injEq] at e3
        obtain ⟨⟨rfl, _⟩, _⟩ := e3
        obtain ⟨rfl, _⟩ := Env.mkKey_some f2
        rfl
      · split at e3
        · unbind e3 with ⟨k', q⟩ f1
          unbind e3 with k'' f2
          simp only [Option.pure_def, Option.some.injEq, Prod.mk.injEq] at e3
          obtain ⟨⟨rfl, _⟩, _⟩ := e3
          obtain ⟨rfl, _⟩ := Env.mkKey_some f2
          rfl
        · cases e3
    omega

example : (OfflineSignature.parse Env.sample (.ed25519 [])
    (be 4 0 ++ be 2 7 ++ List.replicate 32 9 ++ (38 :: List.replicate 63 0) ++ [1])).isSome := by decide +kernel

/-! ## C60: lease set expiry -/

/-- C60: a lease set counts as live exactly when its header has not expired and some lease has not expired. -/
theorem C60_lease_set_live_iff (l : LeaseSet2) (now : Nat) (hnow : now / 1000000000 < 2 ^ 32) :
    l.isExpired now = false ↔
      now / 1000000000 ≤ l.header.expires ∧ ∃ x ∈ l.leases, now ≤ x.expires := by
  unfold LeaseSet2.isExpired
  rw [Nat.mod_eq_of_lt hnow, Bool.or_eq_false_iff]
  simp only [decide_eq_false_iff_not, Nat.not_lt, List.all_eq_false, Bool.not_eq_true, decide_eq_false_iff_not]

theorem foldl_min_le (l : List Nat) (a : Nat) :
    l.foldl min a ≤ a ∧ (∀ x ∈ l, l.foldl min a ≤ x) ∧ (l.foldl min a = a ∨ l.foldl min a ∈ l) := by
  induction l generalizing a with
  | nil => simp
  | cons y t ih =>
    obtain ⟨h1, h2, h3⟩ := ih (min a y)
    simp only [List.foldl_cons]
    refine ⟨by omega, ?_, ?_⟩
    · intro x hx
      rcases List.mem_cons.mp hx with rfl | hx
      · omega
      · exact h2 x hx
    · rcases h3 with h3 | h3
      · rcases Nat.le_total a y with h | h
        · left; rw [h3]; omega
        · right; rw [h3, Nat.min_eq_right h]; simp
      · exact .inr (List.mem_cons_of_mem _ h3)

/-- C60: the reported expiration is the earliest of the header's and the leases' expirations (32-bit seconds). -/
theorem C60_expiration_is_earliest (l : LeaseSet2) (hl : ∀ x ∈ l.leases, x.expires / 1000000000 < 2 ^ 32) :
    l.expires ≤ l.header.expires ∧ (∀ x ∈ l.leases, l.expires ≤ x.expires / 1000000000) ∧
    (l.expires = l.header.expires ∨ ∃ x ∈ l.leases, l.expires = x.expires / 1000000000) := by
  obtain ⟨h1, h2, h3⟩ := foldl_min_le (l.leases.map (fun x => x.expires / 1000000000 % 2 ^ 32)) l.header.expires
  refine ⟨h1, ?_, ?_⟩
  · intro x hx
    have := h2 _ (List.mem_map.mpr ⟨x, hx, rfl⟩)
    rw [Nat.mod_eq_of_lt (hl x hx)] at this
    exact this
  · rcases h3 with h3 | h3
    · exact .inl h3
    · obtain ⟨x, hx, he⟩ := List.mem_map.mp h3
      rw [Nat.mod_eq_of_lt (hl x hx)] at he
      exact .inr ⟨x, hx, he.symm⟩

example : LeaseSet2.sample.expires = 600 ∧
    ({ LeaseSet2.sample with header := { LeaseSet2.sample.header with expires := 100600 } }).isExpired 100550000000000 = false := by
  decide +kernel

/-! A concrete router info that meets the hypotheses of C57 and is accepted. -/
def RouterInfo.sample : RouterInfo :=
  { addresses := ⟨some ⟨10, 0, .ntcp2, [⟨kHost, [49]⟩, ⟨kPort, [56, 56]⟩], some ([49], 88)⟩, none⟩
    capabilities := Capabilities.parse [76, 82]
    identity := RouterIdentity.fromKeys Env.sample (List.replicate 32 1) (List.replicate 32 3) (List.replicate 320 2)
    netId := 2, options := [⟨kCaps, [76, 82]⟩, ⟨kNetId, [50]⟩], published := 1700000000000 }

example : ((RouterInfo.sample.serialize (fun m => UInt8.ofNat m.length :: List.replicate 63 0)).bind
    (fun b => (RouterInfo.parse Env.sample b).map (·.1))) = some RouterInfo.sample := by decide +kernel

end Emissary.Prim
