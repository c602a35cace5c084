import Verif.Props.Wire
import Verif.Props.RouterInfo
import Verif.Props.Layout
/-!
# C275: lease sets and router infos have the layout of the specification
-/
namespace Emissary.Wire
open Emissary Emissary.Prim Field

/-! ## Specification -/

def text (s : String) : Bytes := s.toUTF8.toList

/-- Common structures: a mapping is the length of its entries and for each entry the key and the value as strings with their lengths, `=` and `;`. -/
def entry (k v : Bytes) : List Field := [num 1 k.length, raw k, raw (text "="), num 1 v.length, raw v, raw (text ";")]
/-- See `entry`. -/
def mapping (o : List (Bytes × Bytes)) : List Field :=
  num 2 (layout (o.flatMap fun e => entry e.1 e.2)).length :: o.flatMap fun e => entry e.1 e.2

/-- Common structures: an identity is 384 bytes of keys and padding, and a key certificate (5) of four bytes: Ed25519 (7) and the type of the encryption key. -/
def identity (keys : Bytes) (encryption : Nat) : List Field := [raw keys, num 1 5, num 2 4, num 2 7, num 2 encryption]

/-- Common structures: a lease in a lease set of the second version, with the end in seconds. -/
def lease (gateway : Bytes) (tunnel secs : Nat) : List Field := [raw gateway, num 4 tunnel, num 4 secs]

/-- Common structures: a lease set of the second version without a signature: destination, time of publication, seconds until it expires, flags (bit 1:
not for publication), options, encryption keys with their types, and leases. -/
def leaseSet (dest : Bytes) (published after : Nat) (unpublished : Bool) (options : List (Bytes × Bytes)) (keys : List (Nat × Bytes))
    (leases : List (Bytes × Nat × Nat)) : List Field :=
  [raw dest, num 4 published, num 2 after, num 2 (if unpublished then 2 ^ 1 else 0)] ++ mapping options ++
    num 1 keys.length :: (keys.flatMap fun k => [num 2 k.1, num 2 k.2.length, raw k.2]) ++
    num 1 leases.length :: leases.flatMap fun l => lease l.1 l.2.1 l.2.2

/-- The signature is over a byte 3 and the lease set. -/
def leaseSetSigned (body : Bytes) : Bytes := [3] ++ body

/-- Common structures: the address of a router. -/
def address (cost expires : Nat) (style : Bytes) (options : List (Bytes × Bytes)) : List Field :=
  [num 1 cost, num 8 expires, num 1 style.length, raw style] ++ mapping options

/-- Common structures: a router info without its signature: identity, milliseconds, addresses, no peers, options. -/
def routerInfo (ident : Bytes) (ms : Nat) (addresses : List (List Field)) (options : List (Bytes × Bytes)) : List Field :=
  [raw ident, num 8 ms, num 1 addresses.length] ++ addresses.flatten ++ num 1 0 :: mapping options

/-! ## Lemmas -/

/-- Entries as the model has them. -/
def entries (o : List (Bytes × Bytes)) : List Mapping := o.map fun e => ⟨e.1, e.2⟩

theorem layout_entries (o : List (Bytes × Bytes)) : layout (o.flatMap fun e => entry e.1 e.2) = ((entries o).map Mapping.serialize).flatten := by
  induction o with
  | nil => rfl
  | cons e o ih =>
    have h1 : text "=" = be 1 0x3d := by decide +kernel
    have h2 : text ";" = be 1 0x3b := by decide +kernel
    rw [List.flatMap_cons, layout_append, ih]
    simp [entries, entry, Mapping.serialize, Str.serialize, h1, h2]

theorem layout_mapping (o : List (Bytes × Bytes)) : layout (mapping o) = Mapping.serializeMulti (entries o) := by
  rw [mapping, layout_num, layout_entries]; rfl

/-- Options that can be written. -/
def OptionsFit (E : Env) (o : List (Bytes × Bytes)) : Prop :=
  (∀ e ∈ o, e.1.length < 2 ^ 8 ∧ e.2.length < 2 ^ 8 ∧ E.utf8 e.1 = true ∧ E.utf8 e.2 = true) ∧ (layout (o.flatMap fun e => entry e.1 e.2)).length < 2 ^ 16

theorem mapping_read {E : Env} {o : List (Bytes × Bytes)} (h : OptionsFit E o) (r : Bytes) :
    Mapping.parseMulti E (layout (mapping o) ++ r) = some (entries o, r) := by
  obtain ⟨h1, h2⟩ := h
  rw [layout_entries] at h2
  have := C25_mappings_roundtrip E (entries o) r (by
    intro m hm
    obtain ⟨e, he, rfl⟩ := List.mem_map.mp hm
    obtain ⟨a, b, c, d⟩ := h1 e he
    exact ⟨by simp only; omega, by simp only; omega, c, d⟩) h2
  rw [layout_mapping]
  exact this

theorem keys_read (keys : List (Nat × Bytes)) (r : Bytes) (h : ∀ k ∈ keys, k.1 < 2 ^ 16 ∧ k.2.length < 2 ^ 16 ∧ (k.1 = 4 → k.2.length = 32)) :
    LeaseSet2.parseKeys keys.length (layout (keys.flatMap fun k => [num 2 k.1, num 2 k.2.length, raw k.2]) ++ r) =
      some ((keys.filter fun k => k.1 = 4).map (·.2), r) := by
  induction keys with
  | nil => rfl
  | cons k keys ih =>
    obtain ⟨t, k⟩ := k
    obtain ⟨h1, h2, h3⟩ := h (t, k) (by simp)
    simp only at h1 h2 h3
    have e1 : t % 256 ^ 2 = t := Nat.mod_eq_of_lt (by omega)
    have e2 : k.length % 256 ^ 2 = k.length := Nat.mod_eq_of_lt (by omega)
    have ih := ih fun x hx => h x (by simp [hx])
    rw [List.flatMap_cons, layout_append, List.length_cons, LeaseSet2.parseKeys]
    simp only [layout_num, layout_raw, layout_nil, List.append_nil, List.append_assoc, beU_be, bind_some_pair, e1, e2, takeN_append (Eq.refl k.length)]
    by_cases ht : t = 4
    · rw [if_pos ht, if_pos (h3 ht), ih]
      simp [ht]
    · rw [if_neg ht, ih]
      simp [ht]

/-- Leases as the model has them. -/
def leasesOf (l : List (Bytes × Nat × Nat)) : List Lease := l.map fun x => { router := x.1, tunnelId := x.2.1, expires := x.2.2 * 1000000000 }

theorem layout_leases (l : List (Bytes × Nat × Nat)) : layout (l.flatMap fun x => lease x.1 x.2.1 x.2.2) = ((leasesOf l).map Lease.serialize2).flatten := by
  induction l with
  | nil => rfl
  | cons a l ih => rw [List.flatMap_cons, layout_append, ih]; simp [leasesOf, lease, Lease.serialize2]

theorem leases_read (l : List (Bytes × Nat × Nat)) (r : Bytes) (h : ∀ x ∈ l, x.1.length = 32 ∧ x.2.1 < 2 ^ 32 ∧ x.2.2 < 2 ^ 32) :
    LeaseSet2.parseLeases l.length (layout (l.flatMap fun x => lease x.1 x.2.1 x.2.2) ++ r) = some (leasesOf l, r) := by
  have hl : (leasesOf l).length = l.length := by simp [leasesOf]
  rw [layout_leases, ← hl, LeaseSet2.parseLeases_serialize]
  · congr 2
    rw [List.map_congr_left (g := id), List.map_id]
    intro x hx
    obtain ⟨a, _, rfl⟩ := List.mem_map.mp hx
    simp [Lease.truncate]
  · intro x hx
    obtain ⟨a, ha, rfl⟩ := List.mem_map.mp hx
    obtain ⟨h1, h2, h3⟩ := h a ha
    exact ⟨h1, h2, by simpa using h3⟩

/-! ## C275 -/

/-- C275: a lease set is made as the specification says. -/
theorem C275_lease_set_made (sign : Bytes → Bytes) (l : LeaseSet2) (hk : ∀ k ∈ l.keys, k.length = 32) :
    let body := layout (leaseSet l.header.destination.serialized l.header.published l.header.expires l.header.unpublished [] (l.keys.map (4, ·))
      (l.leases.map fun x => (x.router, x.tunnelId, x.expires / 1000000000)))
    l.serialize sign = body ++ sign (leaseSetSigned body) := by
  intro body
  have hb : l.body = body := by
    obtain ⟨⟨d, e, o, p, u⟩, keys, leases⟩ := l
    have h1 : ∀ keys : List Bytes, (∀ k ∈ keys, k.length = 32) →
        layout ((keys.map (4, ·)).flatMap fun k : Nat × Bytes => [num 2 k.1, num 2 k.2.length, raw k.2]) = (keys.map fun k => be 2 4 ++ be 2 32 ++ k).flatten := by
      intro keys
      induction keys with
      | nil => intro _; rfl
      | cons k ks ih =>
        intro h
        rw [List.map_cons, List.flatMap_cons, layout_append, ih fun x hx => h x (by simp [hx])]
        simp [h k (by simp)]
    have h2 : layout ((leases.map fun x => (x.router, x.tunnelId, x.expires / 1000000000)).flatMap fun x => lease x.1 x.2.1 x.2.2) =
        (leases.map Lease.serialize2).flatten := by
      rw [layout_leases, leasesOf, List.map_map, List.map_map]
      congr 1
      apply List.map_congr_left
      intro x _
      simp [Lease.serialize2]
    simp only [body, leaseSet, layout_append, layout_num, layout_raw, layout_nil, h1 keys hk, h2, layout_mapping, LeaseSet2.body, LsHeader.serialize, List.length_map,
      List.append_nil, List.append_assoc, List.cons_append, List.nil_append]
    rfl
  rw [LeaseSet2.serialize, hb]
  rfl

/-- C275: every lease set of the specification is read that has a key for ECIES and between one and sixteen leases, is signed by the destination's own key
and expires after at most 65,535 seconds, whatever its options and whatever keys of other types it has. -/
theorem C275_lease_set_read_partial (E : Env) (d : Destination) (hd : ∀ r, Destination.parse E (d.serialized ++ r) = some (d, r)) (published after : Nat) (unpublished : Bool)
    (options : List (Bytes × Bytes)) (keys : List (Nat × Bytes)) (leases : List (Bytes × Nat × Nat)) (sig r : Bytes)
    (h1 : published < 2 ^ 32) (h2 : after < 2 ^ 16) (h3 : OptionsFit E options)
    (h4 : ∀ k ∈ keys, k.1 < 2 ^ 16 ∧ k.2.length < 2 ^ 16 ∧ (k.1 = 4 → k.2.length = 32)) (h5 : keys.length < 2 ^ 8) (h6 : ∃ k ∈ keys, k.1 = 4)
    (h7 : ∀ x ∈ leases, x.1.length = 32 ∧ x.2.1 < 2 ^ 32 ∧ x.2.2 < 2 ^ 32) (h8 : 0 < leases.length) (h9 : leases.length ≤ 16) (h10 : sig.length = d.key.sigLen)
    (h11 : E.verify d.key (leaseSetSigned (layout (leaseSet d.serialized published after unpublished options keys leases))) sig = true) :
    LeaseSet2.parse E (layout (leaseSet d.serialized published after unpublished options keys leases) ++ (sig ++ r)) =
      some ({ header := { destination := d, expires := min (published + after) (2 ^ 32 - 1), offline := none, published := published, unpublished := unpublished }
              keys := (keys.filter fun k => k.1 = 4).map (·.2), leases := leasesOf leases }, r) := by
  generalize hbody : layout (leaseSet d.serialized published after unpublished options keys leases) = body at h11
  have a1 : published % 256 ^ 4 = published := Nat.mod_eq_of_lt (by omega)
  have a2 : after % 256 ^ 2 = after := Nat.mod_eq_of_lt (by omega)
  have a3 : keys.length % 256 ^ 1 = keys.length := Nat.mod_eq_of_lt (by omega)
  have a4 : leases.length % 256 ^ 1 = leases.length := Nat.mod_eq_of_lt (by omega)
  have a5 : (if unpublished then 2 ^ 1 else 0) % 256 ^ 2 = if unpublished then 2 ^ 1 else 0 := by cases unpublished <;> rfl
  have a6 : (if unpublished then 2 ^ 1 else 0) % 2 = 0 := by cases unpublished <;> rfl
  have a7 : decide ((if unpublished then 2 ^ 1 else 0) / 2 % 2 = 1) = unpublished := by cases unpublished <;> rfl
  have b1 : ((keys.filter fun k => k.1 = 4).map (·.2)).isEmpty = false := by
    obtain ⟨k, hk, hk4⟩ := h6
    rw [List.isEmpty_eq_false_iff]
    exact List.ne_nil_of_mem (List.mem_map_of_mem (List.mem_filter.mpr ⟨hk, by simpa using hk4⟩))
  have b2 : ¬ (leases.length > 16 ∨ leases.length = 0) := by omega
  have hb : ∀ x, body ++ x = d.serialized ++ (be 4 published ++ (be 2 after ++ (be 2 (if unpublished then 2 ^ 1 else 0) ++ (layout (mapping options) ++
      (be 1 keys.length ++ (layout (keys.flatMap fun k => [num 2 k.1, num 2 k.2.length, raw k.2]) ++ (be 1 leases.length ++
      (layout (leases.flatMap fun l => lease l.1 l.2.1 l.2.2) ++ x)))))))) := by
    intro x
    rw [← hbody]
    simp only [leaseSet, layout_append, layout_num, layout_raw, List.append_assoc, List.cons_append, List.nil_append]
  have hcheck : LeaseSet2.checkSig E { destination := d, expires := min (published + after) (2 ^ 32 - 1), offline := none, published := published, unpublished := unpublished }
      (body ++ (sig ++ r)) (sig ++ r) = some ((), r) := by
    have ht : (body ++ (sig ++ r)).take ((body ++ (sig ++ r)).length - r.length - d.key.sigLen) = body := by
      apply List.take_left'
      simp [h10]; omega
    simp only [LeaseSet2.checkSig, takeN_append h10, bind_some_pair, ht, Option.getD_none]
    rw [show be 1 3 ++ body = leaseSetSigned body from rfl, Env.check_ok h11]
    rfl
  unfold LeaseSet2.parse
  conv => lhs; rw [hb]
  simp only [LsHeader.parse, LsHeader.parseOffline, hd, bind_some_pair, beU_be, a1, a2, a3, a4, a5, a6, a7, if_true, Option.pure_def, mapping_read h3, keys_read keys _ h4, b1,
    Bool.false_eq_true, if_false, if_neg b2, leases_read leases _ h7]
  rw [← hb, hcheck]
  rfl

/-- The names of the transports. -/
def styleOf : Transport → Bytes
  | .ntcp2 => text "NTCP2" | .ssu2 => text "SSU2"

/-- The address that the code has for one of the specification. -/
def addressOf (E : Env) (cost expires : Nat) (t : Transport) (options : List (Bytes × Bytes)) : RouterAddress :=
  { cost := cost, expires := expires, transport := t, options := Options.ofList (entries options), socket := socketOf E (Options.ofList (entries options)) }

theorem address_read (E : Env) (cost expires : Nat) (t : Transport) (options : List (Bytes × Bytes)) (r : Bytes) (h1 : cost < 2 ^ 8) (h2 : expires < 2 ^ 64)
    (h3 : OptionsFit E options) (hu : E.utf8 (styleOf t) = true) :
    RouterAddress.parse E (layout (address cost expires (styleOf t) options) ++ r) = some (addressOf E cost expires t options, r) := by
  have e1 : cost % 256 ^ 1 = cost := Nat.mod_eq_of_lt (by omega)
  have e2 : expires % 256 ^ 8 = expires := Nat.mod_eq_of_lt (by omega)
  have ht : Transport.ofStr (styleOf t) = some t := by cases t <;> decide +kernel
  have hs : ∀ x, Str.parse E (be 1 (styleOf t).length ++ (styleOf t ++ x)) = some (styleOf t, x) := by
    intro x
    have := Str.parse_serialize (E := E) (s := styleOf t) (by cases t <;> decide +kernel) hu x
    rw [← this, Str.serialize, List.append_assoc]
  simp only [address, layout_append, layout_num, layout_raw, layout_nil, List.append_assoc, List.nil_append, RouterAddress.parse, beU_be, bind_some_pair, e1, e2, hs, mapping_read h3, ht, bind_some_val]
  rfl

/-- An address of the specification. -/
structure Addr where
  cost : Nat
  expires : Nat
  transport : Transport
  options : List (Bytes × Bytes)

/-- Its fields. -/
def Addr.fields (a : Addr) : List Field := address a.cost a.expires (styleOf a.transport) a.options

/-- It can be written. -/
def Addr.Fits (E : Env) (a : Addr) : Prop := a.cost < 2 ^ 8 ∧ a.expires < 2 ^ 64 ∧ OptionsFit E a.options ∧ E.utf8 (styleOf a.transport) = true

/-- C275: every router info of the specification is read that has any number of addresses for NTCP2 and SSU2 (below 256), capabilities and a network; of the
addresses for a transport one is kept (C57). -/
theorem C275_router_info_read_partial (E : Env) (sk padding vk : Bytes) (h1 : sk.length = 32) (h2 : padding.length = 320) (h3 : vk.length = 32)
    (hv : E.keyOk (.ed25519 vk) = true) (ms : Nat) (h4 : ms < 2 ^ 64) (addresses : List Addr) (h5 : addresses.length < 2 ^ 8) (h6 : ∀ a ∈ addresses, a.Fits E)
    (options : List (Bytes × Bytes)) (h7 : OptionsFit E options) (caps net : Bytes) (n : Nat)
    (h8 : (Options.ofList (entries options)).get (text "caps") = some caps) (h9 : (Options.ofList (entries options)).get (text "netId") = some net) (h10 : parseUInt 255 net = some n)
    (sig : Bytes) (h11 : sig.length = 64)
    (h12 : E.verify (.ed25519 vk) (layout (routerInfo (layout (identity (sk ++ padding ++ vk) 4)) ms (addresses.map Addr.fields) options)) sig = true) :
    ∃ q, RouterInfo.parse E (layout (routerInfo (layout (identity (sk ++ padding ++ vk) 4)) ms (addresses.map Addr.fields) options) ++ sig) =
      some ({ addresses := (addresses.map fun a => addressOf E a.cost a.expires a.transport a.options).foldl Addresses.insert ⟨none, none⟩
              capabilities := Capabilities.parse caps
              identity := { staticKey := sk, padding := padding, signingKey := vk, hash := E.sha256 (layout (identity (sk ++ padding ++ vk) 4)) }
              netId := n, options := Options.ofList (entries options), published := ms }, q) := by
  have hid : layout (identity (sk ++ padding ++ vk) 4) = (RouterIdentity.fromKeys E sk vk padding).serialize := by
    simp [identity, RouterIdentity.serialize, RouterIdentity.fromKeys]
  have hident : ∀ x, RouterIdentity.parse E (layout (identity (sk ++ padding ++ vk) 4) ++ x) = some (RouterIdentity.fromKeys E sk vk padding, x) := by
    intro x; rw [hid]; exact C27_new_identity_roundtrip E sk vk padding x h1 h2 h3 hv
  have ep : ms % 256 ^ 8 = ms := Nat.mod_eq_of_lt (by omega)
  have ek : addresses.length % 256 ^ 1 = addresses.length := Nat.mod_eq_of_lt (by omega)
  have haddr : ∀ (as : List Addr) (s : Addresses) (x : Bytes), (∀ a ∈ as, a.Fits E) →
      RouterInfo.parseAddrs E as.length s (layout ((as.map Addr.fields).flatten) ++ x) =
        some ((as.map fun a => addressOf E a.cost a.expires a.transport a.options).foldl Addresses.insert s, x) := by
    intro as
    induction as with
    | nil => intro s x _; rfl
    | cons a as ih =>
      intro s x h
      obtain ⟨c1, c2, c3, c4⟩ := h a (by simp)
      rw [List.map_cons, List.flatten_cons, layout_append, List.length_cons, RouterInfo.parseAddrs, List.append_assoc, Addr.fields,
        address_read E a.cost a.expires a.transport a.options _ c1 c2 c3 c4]
      simp only [bind_some_pair]
      rw [ih _ _ fun y hy => h y (by simp [hy])]
      rfl
  generalize hbody : layout (routerInfo (layout (identity (sk ++ padding ++ vk) 4)) ms (addresses.map Addr.fields) options) = body at h12
  have hb : ∀ x, body ++ x = layout (identity (sk ++ padding ++ vk) 4) ++ (be 8 ms ++ (be 1 addresses.length ++ (layout (addresses.map Addr.fields).flatten ++
      (be 1 0 ++ (layout (mapping options) ++ x))))) := by
    intro x
    rw [← hbody]
    simp only [routerInfo, layout_append, layout_num, layout_raw, List.append_assoc, List.cons_append, List.nil_append, List.length_map]
  have ht : (body ++ sig).take ((body ++ sig).length - 64) = body := by
    apply List.take_left'
    simp [h11]
  have hk1 : kCaps = text "caps" := by decide +kernel
  have hk2 : kNetId = text "netId" := by decide +kernel
  refine ⟨sig, ?_⟩
  unfold RouterInfo.parse
  rw [ht]
  conv => lhs; rw [hb sig]
  simp only [hident, bind_some_pair, beU_be, ep, ek, haddr addresses _ _ h6, mapping_read h7, hk1, hk2, h8, h9, h10, bind_some_val]
  have : (RouterIdentity.fromKeys E sk vk padding).signingKey = vk := rfl
  rw [this, Env.check_ok h12]
  simp only [bind_some_val, hid]
  rfl

/-- C275: a router info is made as the specification says. -/
theorem C275_router_info_made (sign : Bytes → Bytes) (r : RouterInfo) (out : Bytes) (h : r.serialize sign = some out) :
    let pairs (o : Options) : List (Bytes × Bytes) := o.map fun m => (m.key, m.value)
    let addresses := (r.addresses.ntcp2.toList ++ r.addresses.ssu2.toList).map fun a => address a.cost a.expires (styleOf a.transport) (pairs a.options)
    let body := layout (routerInfo (layout (identity (r.identity.staticKey ++ r.identity.padding ++ r.identity.signingKey) 4)) r.published addresses (pairs r.options))
    out = body ++ sign body := by
  intro pairs addresses body
  have hp : ∀ o : Options, layout (mapping (pairs o)) = Mapping.serializeMulti o := by
    intro o
    rw [layout_mapping, entries, List.map_map]
    congr 1
    exact List.map_id o
  have ha : ∀ a : RouterAddress, layout (address a.cost a.expires (styleOf a.transport) (pairs a.options)) = a.serialize := by
    intro a
    have ht : be 1 (styleOf a.transport).length ++ styleOf a.transport = a.transport.serialize := by cases a.transport <;> decide +kernel
    simp only [address, layout_append, layout_num, layout_raw, layout_nil, List.append_nil, hp, RouterAddress.serialize, ← ht, List.append_assoc]
  have hid : layout (identity (r.identity.staticKey ++ r.identity.padding ++ r.identity.signingKey) 4) = r.identity.serialize := by
    simp [identity, RouterIdentity.serialize]
  simp only [RouterInfo.serialize] at h
  unbind h with ab ea
  simp only [Option.pure_def, Option.some.injEq] at h
  have hb : body = r.identity.serialize ++ be 8 r.published ++ ab ++ be 1 0 ++ Mapping.serializeMulti r.options := by
    have : be 1 addresses.length ++ layout addresses.flatten = ab := by
      revert ea
      simp only [addresses, Addresses.serialize]
      cases r.addresses.ntcp2 <;> cases r.addresses.ssu2 <;> simp [ha]
    simp only [body, hid]
    simp only [routerInfo, layout_append, layout_num, layout_raw, hp, ← this, List.append_assoc, List.cons_append, List.nil_append]
  rw [← h, hb]

/-- C275: a router info that has an address of another transport besides is not read at all, wherever the address is in the list and whatever comes after it. -/
theorem C275_other_transports_violated (E : Env) (sk padding vk : Bytes) (h1 : sk.length = 32) (h2 : padding.length = 320) (h3 : vk.length = 32)
    (hv : E.keyOk (.ed25519 vk) = true) (ms : Nat) (h4 : ms < 2 ^ 64) (before after : List Addr) (h5 : before.length + 1 + after.length < 2 ^ 8)
    (h6 : ∀ a ∈ before, a.Fits E) (style : Bytes) (cost expires : Nat) (own : List (Bytes × Bytes)) (hs : style.length < 2 ^ 8) (hu : E.utf8 style = true)
    (ho : OptionsFit E own) (hc : cost < 2 ^ 8) (he : expires < 2 ^ 64) (hn : ¬ text "SSU" <+: style ∧ ¬ text "NTCP2" <+: style) (options : List (Bytes × Bytes)) (sig : Bytes) :
    RouterInfo.parse E (layout (routerInfo (layout (identity (sk ++ padding ++ vk) 4)) ms
      (before.map Addr.fields ++ address cost expires style own :: after.map Addr.fields) options) ++ sig) = none := by
  have hid : layout (identity (sk ++ padding ++ vk) 4) = (RouterIdentity.fromKeys E sk vk padding).serialize := by
    simp [identity, RouterIdentity.serialize, RouterIdentity.fromKeys]
  have hident : ∀ x, RouterIdentity.parse E (layout (identity (sk ++ padding ++ vk) 4) ++ x) = some (RouterIdentity.fromKeys E sk vk padding, x) := by
    intro x; rw [hid]; exact C27_new_identity_roundtrip E sk vk padding x h1 h2 h3 hv
  have ep : ms % 256 ^ 8 = ms := Nat.mod_eq_of_lt (by omega)
  have ek : (before.length + (after.length + 1)) % 256 ^ 1 = before.length + (after.length + 1) := Nat.mod_eq_of_lt (by omega)
  have e1 : cost % 256 ^ 1 = cost := Nat.mod_eq_of_lt (by omega)
  have e2 : expires % 256 ^ 8 = expires := Nat.mod_eq_of_lt (by omega)
  have hbad : ∀ x, RouterAddress.parse E (layout (address cost expires style own) ++ x) = none := by
    intro x
    have hstr : ∀ x, Str.parse E (be 1 style.length ++ (style ++ x)) = some (style, x) := by
      intro x
      have := Str.parse_serialize (E := E) (s := style) (by omega) hu x
      rw [← this, Str.serialize, List.append_assoc]
    have hk : Transport.ofStr style = none := by
      have t1 : text "SSU" = [0x53, 0x53, 0x55] := by decide +kernel
      have t2 : text "NTCP2" = [0x4e, 0x54, 0x43, 0x50, 0x32] := by decide +kernel
      rw [t1, t2, ← List.isPrefixOf_iff_prefix, ← List.isPrefixOf_iff_prefix] at hn
      simp only [Bool.not_eq_true] at hn
      simp [Transport.ofStr, hn]
    simp only [address, layout_append, layout_num, layout_raw, layout_nil, List.append_assoc, List.nil_append, RouterAddress.parse, beU_be, bind_some_pair, e1, e2, hstr,
      mapping_read ho, hk]
    rfl
  have haddr : ∀ (as : List Addr) (s : Addresses) (n : Nat) (x : Bytes), (∀ a ∈ as, a.Fits E) →
      RouterInfo.parseAddrs E (as.length + (n + 1)) s (layout ((as.map Addr.fields).flatten) ++ (layout (address cost expires style own) ++ x)) = none := by
    intro as
    induction as with
    | nil =>
      intro s n x _
      rw [List.length_nil, Nat.zero_add, RouterInfo.parseAddrs]
      simp only [List.map_nil, List.flatten_nil, layout_nil, List.nil_append, hbad]
      rfl
    | cons a as ih =>
      intro s n x h
      obtain ⟨c1, c2, c3, c4⟩ := h a (by simp)
      rw [List.map_cons, List.flatten_cons, layout_append, List.length_cons, Nat.add_right_comm, RouterInfo.parseAddrs, List.append_assoc, Addr.fields,
        address_read E a.cost a.expires a.transport a.options _ c1 c2 c3 c4]
      simp only [bind_some_pair]
      exact ih _ _ _ fun y hy => h y (by simp [hy])
  generalize layout (identity (sk ++ padding ++ vk) 4) = ident at hident
  unfold RouterInfo.parse
  simp only [routerInfo, layout_append, layout_num, layout_raw, List.append_assoc, List.cons_append, List.nil_append, List.length_map, List.length_append, List.length_cons,
    List.flatten_append, List.flatten_cons, hident, bind_some_pair, beU_be, ep, ek, haddr before _ _ _ h6]
  rfl

/-- C275: a lease set all of whose keys are of other types than X25519 is not read. -/
theorem C275_other_keys_violated (E : Env) (d : Destination) (hd : ∀ r, Destination.parse E (d.serialized ++ r) = some (d, r)) (published after : Nat) (unpublished : Bool)
    (options : List (Bytes × Bytes)) (keys : List (Nat × Bytes)) (leases : List (Bytes × Nat × Nat)) (r : Bytes)
    (h1 : published < 2 ^ 32) (h2 : after < 2 ^ 16) (h3 : OptionsFit E options)
    (h4 : ∀ k ∈ keys, k.1 < 2 ^ 16 ∧ k.2.length < 2 ^ 16 ∧ k.1 ≠ 4) (h5 : keys.length < 2 ^ 8) :
    LeaseSet2.parse E (layout (leaseSet d.serialized published after unpublished options keys leases) ++ r) = none := by
  have a1 : published % 256 ^ 4 = published := Nat.mod_eq_of_lt (by omega)
  have a2 : after % 256 ^ 2 = after := Nat.mod_eq_of_lt (by omega)
  have a3 : keys.length % 256 ^ 1 = keys.length := Nat.mod_eq_of_lt (by omega)
  have a5 : (if unpublished then 2 ^ 1 else 0) % 256 ^ 2 = if unpublished then 2 ^ 1 else 0 := by cases unpublished <;> rfl
  have a6 : (if unpublished then 2 ^ 1 else 0) % 2 = 0 := by cases unpublished <;> rfl
  have b1 : ((keys.filter fun k => k.1 = 4).map (·.2)).isEmpty = true := by
    rw [List.isEmpty_iff, List.map_eq_nil_iff, List.filter_eq_nil_iff]
    intro k hk
    simpa using (h4 k hk).2.2
  unfold LeaseSet2.parse
  simp only [leaseSet, layout_append, layout_num, layout_raw, List.append_assoc, List.cons_append, List.nil_append, LsHeader.parse, LsHeader.parseOffline, hd, bind_some_pair,
    beU_be, a1, a2, a3, a5, a6, if_true, Option.pure_def, mapping_read h3, keys_read keys _ fun k hk => ⟨(h4 k hk).1, (h4 k hk).2.1, fun h => absurd h (h4 k hk).2.2⟩, b1]

/-! ## Cases that meet the hypotheses -/

example : layout (mapping [([97], [98, 99])]) = [0, 7, 1, 97, 61, 2, 98, 99, 59] := by decide +kernel
example : OptionsFit Env.sample [(text "caps", text "LR"), (text "netId", text "2"), (text "router.version", text "0.9.66")] := by
  constructor
  · intro e he
    simp only [List.mem_cons, List.not_mem_nil, or_false] at he
    rcases he with rfl | rfl | rfl <;> decide +kernel
  · decide +kernel
/-- A destination that is read. -/
def someone : Destination := Destination.new Env.sample (List.replicate 32 7) (List.replicate 352 5)
example : ∀ r, Destination.parse Env.sample (someone.serialized ++ r) = some (someone, r) := fun r =>
  C26_new_destination_roundtrip Env.sample _ _ r List.length_replicate List.length_replicate (by decide +kernel)
/-- A lease set with an option, an ElGamal key and an X25519 key. -/
def mixed : Bytes :=
  layout (leaseSet someone.serialized 1000 600 false [([97], [98])] [(0, List.replicate 256 1), (4, List.replicate 32 2)] [(List.replicate 32 3, 9, 1500)])
example : Env.sample.verify someone.key (leaseSetSigned mixed) (UInt8.ofNat (leaseSetSigned mixed).length :: List.replicate 63 0) = true ∧
    (LeaseSet2.parse Env.sample (mixed ++ (UInt8.ofNat (leaseSetSigned mixed).length :: List.replicate 63 0) ++ [1])).map (fun x => (x.1.keys, x.1.leases.length, x.2)) =
      some ([List.replicate 32 2], 1, [1]) := by decide +kernel
/-- A router info with two addresses for NTCP2. -/
def twoAddresses : Bytes :=
  layout (routerInfo (layout (identity (List.replicate 352 1 ++ List.replicate 32 3) 4)) 5
    [(Addr.mk 14 0 .ntcp2 []).fields, (Addr.mk 3 0 .ntcp2 [(text "host", text "1"), (text "port", text "88")]).fields] [(text "caps", text "LR"), (text "netId", text "2")])
example : ((RouterInfo.parse Env.sample (twoAddresses ++ (UInt8.ofNat twoAddresses.length :: List.replicate 63 0))).map fun r =>
    (r.1.addresses.ntcp2.map (·.cost), r.1.netId)).isSome := by decide +kernel
example : ¬ text "SSU" <+: text "NTCP3" ∧ ¬ text "NTCP2" <+: text "NTCP3" := by
  simp only [← List.isPrefixOf_iff_prefix]; decide +kernel

end Emissary.Wire
