import Verif.Model.Bytes
/-!
# I2P common structures

Models `emissary-core/src/primitives/{string,mapping,date,router_identity,destination,offline_signature,lease_set,
router_address,capabilities,router_info}.rs`.

Simplifications: `Str` is its bytes (the `Static`/`Allocated` distinction is invisible, string.rs:125-131);
`HashMap<Str, Str>` is the list of its entries in key order, which is the order the code serializes them in;
`RouterId`/`DestinationId` are the hash bytes (base64 text in the code). SHA-256, UTF-8 validation, key validation,
signature verification and IP address parsing are fields of `Env`.
-/
namespace Emissary.Prim
open Emissary

/-- `SigningPublicKey`, crypto/mod.rs:337-349, as its kind and raw bytes (`as_ref`, 412-420). -/
inductive VKey where
  | ed25519 (b : Bytes)
  | p256 (b : Bytes)
  | dsa (b : Bytes)
deriving Repr, DecidableEq

/-- `SigningPublicKey::as_ref`, crypto/mod.rs:412-420. -/
def VKey.bytes : VKey → Bytes
  | .ed25519 b | .p256 b | .dsa b => b

/-- `SigningPublicKey::signature_len`, crypto/mod.rs:403-409. -/
def VKey.sigLen : VKey → Nat
  | .ed25519 _ => 64
  | .p256 _ => 64
  | .dsa _ => 40

/-- The primitives the code takes from other crates: SHA-256, `core::str::from_utf8`, the validity check of
`SigningPublicKey::{from_bytes,p256,dsa_sha1}` (crypto/mod.rs:355-374), `SigningPublicKey::verify` (377-400) and
`str::parse::<IpAddr>`. -/
structure Env where
  sha256 : Bytes → Bytes
  utf8 : Bytes → Bool
  keyOk : VKey → Bool
  verify : VKey → Bytes → Bytes → Bool
  parseIp : Bytes → Option Bytes

/-- `SigningPublicKey::{from_bytes,p256,dsa_sha1}`. -/
def Env.mkKey (E : Env) (k : VKey) : Option VKey := if E.keyOk k then some k else none

/-- `verify(..).map_err(..)?`. Not in the code: a helper of the model. -/
def Env.check (E : Env) (k : VKey) (msg sig : Bytes) : Option Unit := if E.verify k msg sig then some () else none

/-! ## Strings and mappings -/

/-- `Str`. primitives/string.rs. -/
abbrev Str := Bytes

/-- `Str::serialize`, string.rs:137-144. -/
def Str.serialize (s : Str) : Bytes := be 1 s.length ++ s

/-- `Str::parse_frame`, string.rs:147-154 (with `TryFrom<&[u8]>`, 73-89). -/
def Str.parse (E : Env) : Parser Str := fun input => do
  let (size, rest) ← beU 1 input
  let (s, rest) ← takeN size rest
  if E.utf8 s then some (s, rest) else none

/-- `FromStr for Str`, string.rs:91-107. -/
def Str.fromStr (s : Bytes) : Option Str := if s.length > 255 then none else some s

/-- `Mapping`, mapping.rs:32-39. -/
structure Mapping where
  key : Str
  value : Str
deriving Repr, DecidableEq

/-- `Mapping::serialize`, mapping.rs:53-67. -/
def Mapping.serialize (m : Mapping) : Bytes :=
  Str.serialize m.key ++ be 1 0x3d ++ Str.serialize m.value ++ be 1 0x3b

/-- `Mapping::parse_frame`, mapping.rs:70-77. -/
def Mapping.parse (E : Env) : Parser Mapping := fun input => do
  let (key, rest) ← Str.parse E input
  let (_, rest) ← beU 1 rest
  let (value, rest) ← Str.parse E rest
  let (_, rest) ← beU 1 rest
  return ({ key := key, value := value }, rest)

/-- `Mapping::serialized_len`, mapping.rs:110-112 (`Str::serialized_len`, string.rs:162-164). -/
def Mapping.serializedLen (m : Mapping) : Nat := m.key.length + 1 + (m.value.length + 1) + 2

/-- The `while num_option_bytes > 0` loop, mapping.rs:88-94. Every round subtracts at least 4, so `fuel = n` rounds
suffice; `serialized_len as u16` is the `% 65536`. -/
def Mapping.parseLoop (E : Env) : Nat → Nat → Parser (List Mapping)
  | fuel, n, rest =>
    if n = 0 then some ([], rest)
    else match fuel with
      | 0 => none
      | fuel + 1 => do
        let (m, rest) ← Mapping.parse E rest
        let (ms, rest) ← Mapping.parseLoop E fuel (n - m.serializedLen % 65536) rest
        return (m :: ms, rest)

/-- `Mapping::parse_multi_frame`, mapping.rs:80-97. -/
def Mapping.parseMulti (E : Env) : Parser (List Mapping) := fun input =>
  if input.isEmpty then some ([], [])
  else do
    let (n, rest) ← beU 2 input
    Mapping.parseLoop E n n rest

/-- How callers serialize a list of options (router_address.rs:251-257, router_info.rs:252-290): a 16-bit byte count
followed by the entries. -/
def Mapping.serializeMulti (ms : List Mapping) : Bytes :=
  let b := (ms.map Mapping.serialize).flatten
  be 2 b.length ++ b

/-! ## Options as maps -/

/-- `str::cmp` (bytewise lexicographic) as strict order. Standard or external library, not in /repo. -/
def strLt : Bytes → Bytes → Bool
  | [], [] => false
  | [], _ :: _ => true
  | _ :: _, [] => false
  | a :: as, b :: bs => if a < b then true else if b < a then false else strLt as bs

/-- `HashMap<Str, Str>` as its entries in key order. Standard or external library, not in /repo. -/
abbrev Options := List Mapping

/-- `HashMap::insert`. Standard or external library, not in /repo. -/
def Options.ins (m : Mapping) : Options → Options
  | [] => [m]
  | x :: t => if m.key = x.key then m :: t else if strLt m.key x.key then m :: x :: t else x :: Options.ins m t

/-- `Mapping::into_hashmap`, mapping.rs:115-117: later entries replace earlier ones with the same key. -/
def Options.ofList (ms : List Mapping) : Options := ms.foldl (fun o m => Options.ins m o) []

/-- `HashMap::get`. Standard or external library, not in /repo. -/
def Options.get (o : Options) (k : Str) : Option Str := (o.find? (fun m => m.key = k)).map (·.value)

/-! ## Numbers in text -/

/-- `str::parse::<u8>` / `::<u16>` with `max = 255` / `65535`: optional `+`, at least one digit, no overflow. -/
def digits : Bytes → Nat → Option Nat
  | [], acc => some acc
  | c :: cs, acc => if 48 ≤ c.toNat ∧ c.toNat ≤ 57 then digits cs (acc * 10 + (c.toNat - 48)) else none

/-- Standard or external library, not in /repo. -/
def parseUInt (max : Nat) (s : Bytes) : Option Nat :=
  let s := match s with | 43 :: t => t | _ => s
  if s.isEmpty then none
  else match digits s 0 with
    | some n => if n ≤ max then some n else none
    | none => none

/-! ## Router identity -/

/-- `RouterIdentity`, router_identity.rs:96-112 (the `router` id is the hash). -/
structure RouterIdentity where
  staticKey : Bytes
  padding : Bytes
  signingKey : Bytes
  hash : Bytes
deriving Repr, DecidableEq

/-- `RouterIdentity::serialize`, router_identity.rs:237-249. -/
def RouterIdentity.serialize (i : RouterIdentity) : Bytes :=
  i.staticKey ++ i.padding ++ i.signingKey ++ be 1 5 ++ be 2 4 ++ be 2 7 ++ be 2 4

/-- `RouterIdentity::parse_frame`, router_identity.rs:154-228. -/
def RouterIdentity.parse (E : Env) : Parser RouterIdentity := fun input =>
  if input.length < 391 then none
  else do
    let (init, rest) ← takeN 384 input
    let (certType, rest) ← beU 1 rest
    let (certLen, rest) ← beU 2 rest
    let (sigType, rest) ← beU 2 rest
    let (pubType, rest) ← beU 2 rest
    if certType = 5 ∧ certLen = 4 ∧ pubType = 4 ∧ sigType = 7 then do
      let key ← E.mkKey (.ed25519 (init.drop 352))
      return ({ staticKey := init.take 32, padding := (init.take 352).drop 32, signingKey := key.bytes,
                hash := E.sha256 (input.take 391) }, rest)
    else none

/-- `RouterIdentity::from_keys`, router_identity.rs:116-151, given the public keys and 320 random bytes. -/
def RouterIdentity.fromKeys (E : Env) (staticKey signingKey padding : Bytes) : RouterIdentity :=
  { staticKey := staticKey, padding := padding, signingKey := signingKey
    hash := E.sha256 (staticKey ++ padding ++ signingKey ++ be 1 5 ++ be 2 4 ++ be 2 7 ++ be 2 4) }

/-! ## Destination -/

/-- `Destination`, destination.rs:110-122 (the id is the hash). -/
structure Destination where
  hash : Bytes
  serialized : Bytes
  key : VKey
deriving Repr, DecidableEq

/-- The key/certificate decision of `Destination::parse_frame`, destination.rs:176-228: key and serialized length. -/
def Destination.parseCert (E : Env) (init : Bytes) (certKind certLen : Nat) : Parser (VKey × Nat) := fun rest =>
  if certKind = 0 then do
    let k ← E.mkKey (.dsa (init.drop 256))
    return ((k, 387), rest)
  else if certKind = 5 ∧ certLen = 4 then do
    let (sigKind, rest) ← beU 2 rest
    let (_, rest) ← beU 2 rest
    if sigKind = 7 then do
      let k ← E.mkKey (.ed25519 (init.drop 352))
      return ((k, 391), rest)
    else if sigKind = 1 then do
      let k ← E.mkKey (.p256 (init.drop 320))
      return ((k, 391), rest)
    else none
  else none

/-- `Destination::parse_frame`, destination.rs:158-243. -/
def Destination.parse (E : Env) : Parser Destination := fun input =>
  if input.length < 387 then none
  else do
    let (init, rest) ← takeN 384 input
    let (certKind, rest) ← beU 1 rest
    let (certLen, rest) ← beU 2 rest
    let ((key, len), rest) ← Destination.parseCert E init certKind certLen rest
    return ({ hash := E.sha256 (input.take len), serialized := input.take len, key := key }, rest)

/-- `Destination::serialized_len`, destination.rs:256-268. -/
def Destination.serializedLen (d : Destination) : Nat :=
  32 + 320 + 32 + 1 + 2 + (match d.key with | .dsa _ => 0 | _ => 4)

/-- `Destination::new`, destination.rs:126-155, given the random padding. The code always writes the Ed25519 key
kind; only Ed25519 keys can be generated. -/
def Destination.new (E : Env) (key padding : Bytes) : Destination :=
  let ser := padding ++ key ++ be 1 5 ++ be 2 4 ++ be 2 7 ++ be 2 0
  { hash := E.sha256 ser, serialized := ser, key := .ed25519 key }

/-! ## Offline signature -/

/-- The transient key, offline_signature.rs:56-86: key and its length. -/
def OfflineSignature.parseKey (E : Env) (kind : Nat) : Parser (VKey × Nat) := fun rest =>
  if kind = 7 then do
    let (k, rest) ← takeN 32 rest
    let key ← E.mkKey (.ed25519 k)
    return ((key, 32), rest)
  else if kind = 1 then do
    let (k, rest) ← takeN 64 rest
    let key ← E.mkKey (.p256 k)
    return ((key, 64), rest)
  else none

/-- `OfflineSignature::parse_frame`, offline_signature.rs:43-103. The expiration is read and ignored; the signature
length is the one of the *transient* key. -/
def OfflineSignature.parse (E : Env) (key : VKey) : Parser VKey := fun input => do
  let (_, rest) ← beU 4 input
  let (kind, rest) ← beU 2 rest
  let ((tkey, klen), rest) ← OfflineSignature.parseKey E kind rest
  let (sig, rest) ← takeN tkey.sigLen rest
  let _ ← E.check key (input.take (6 + klen)) sig
  return (tkey, rest)

/-! ## Lease sets -/

/-- `LeaseSet2Header`, lease_set.rs:45-60. -/
structure LsHeader where
  destination : Destination
  expires : Nat
  offline : Option VKey
  published : Nat
  unpublished : Bool
deriving Repr, DecidableEq

/-- The flags part of `LeaseSet2Header::parse_frame`, lease_set.rs:73-99. -/
def LsHeader.parseOffline (E : Env) (flags : Nat) (key : VKey) : Parser (Option VKey) := fun rest =>
  if flags % 2 = 0 then some (none, rest)
  else do
    let (k, rest) ← OfflineSignature.parse E key rest
    return (some k, rest)

/-- `LeaseSet2Header::parse_frame`, lease_set.rs:66-100. `u32::saturating_add` is the `min`. -/
def LsHeader.parse (E : Env) : Parser LsHeader := fun input => do
  let (dest, rest) ← Destination.parse E input
  let (published, rest) ← beU 4 rest
  let (expires, rest) ← beU 2 rest
  let (flags, rest) ← beU 2 rest
  let (off, rest) ← LsHeader.parseOffline E flags dest.key rest
  return ({ destination := dest, expires := min (published + expires) (2 ^ 32 - 1), offline := off,
            published := published, unpublished := flags / 2 % 2 = 1 }, rest)

/-- `LeaseSet2Header::serialize`, lease_set.rs:109-122: the low 16 bits of `expires`, no offline signature. -/
def LsHeader.serialize (h : LsHeader) : Bytes :=
  h.destination.serialized ++ be 4 h.published ++ be 2 h.expires ++ be 2 (if h.unpublished then 2 else 0)

/-- `Lease`, lease_set.rs:133-142; `expires` in nanoseconds. -/
structure Lease where
  router : Bytes
  tunnelId : Nat
  expires : Nat
deriving Repr, DecidableEq

/-- `Lease::parse_frame_lease2`, lease_set.rs:158-171. -/
def Lease.parse2 : Parser Lease := fun input => do
  let (r, rest) ← takeN 32 input
  let (id, rest) ← beU 4 rest
  let (e, rest) ← beU 4 rest
  return ({ router := r, tunnelId := id, expires := e * 1000000000 }, rest)

/-- `Lease::parse_frame_lease`, lease_set.rs:176-189. -/
def Lease.parse1 : Parser Lease := fun input => do
  let (r, rest) ← takeN 32 input
  let (id, rest) ← beU 4 rest
  let (e, rest) ← beU 8 rest
  return ({ router := r, tunnelId := id, expires := e * 1000000 }, rest)

/-- `Lease::serialize_lease2`, lease_set.rs:215-223. -/
def Lease.serialize2 (l : Lease) : Bytes := l.router ++ be 4 l.tunnelId ++ be 4 (l.expires / 1000000000)
/-- `Lease::serialize_lease`, lease_set.rs:204-212. -/
def Lease.serialize1 (l : Lease) : Bytes := l.router ++ be 4 l.tunnelId ++ be 8 (l.expires / 1000000)

/-- `LeaseSet2`, lease_set.rs:247-256. -/
structure LeaseSet2 where
  header : LsHeader
  keys : List Bytes
  leases : List Lease
deriving Repr, DecidableEq

/-- The key loop, lease_set.rs:267-302; `StaticPublicKey::from_bytes` accepts exactly 32 bytes (crypto/mod.rs:96). -/
def LeaseSet2.parseKeys : Nat → Parser (List Bytes)
  | 0, rest => some ([], rest)
  | n + 1, rest => do
    let (kind, rest) ← beU 2 rest
    let (len, rest) ← beU 2 rest
    let (key, rest) ← takeN len rest
    if kind = 4 then
      if key.length = 32 then do
        let (ks, rest) ← LeaseSet2.parseKeys n rest
        return (key :: ks, rest)
      else none
    else LeaseSet2.parseKeys n rest

/-- The lease loop, lease_set.rs:326-340. -/
def LeaseSet2.parseLeases : Nat → Parser (List Lease)
  | 0, rest => some ([], rest)
  | n + 1, rest => do
    let (l, rest) ← Lease.parse2 rest
    let (ls, rest) ← LeaseSet2.parseLeases n rest
    return (l :: ls, rest)

/-- Signature check, lease_set.rs:353-387. -/
def LeaseSet2.checkSig (E : Env) (h : LsHeader) (input rest : Bytes) : Option (Unit × Bytes) := do
  let (sig, rest) ← takeN h.destination.key.sigLen rest
  let msg := be 1 3 ++ input.take (input.length - rest.length - h.destination.key.sigLen)
  let _ ← E.check (h.offline.getD h.destination.key) msg sig
  return ((), rest)

/-- `LeaseSet2::parse_frame`, lease_set.rs:262-397. -/
def LeaseSet2.parse (E : Env) : Parser LeaseSet2 := fun input => do
  let (header, rest) ← LsHeader.parse E input
  let (_, rest) ← Mapping.parseMulti E rest
  let (n, rest) ← beU 1 rest
  let (keys, rest) ← LeaseSet2.parseKeys n rest
  if keys.isEmpty then none
  else do
    let (m, rest) ← beU 1 rest
    if m > 16 ∨ m = 0 then none
    else do
      let (leases, rest) ← LeaseSet2.parseLeases m rest
      let (_, rest) ← LeaseSet2.checkSig E header input rest
      return ({ header := header, keys := keys, leases := leases }, rest)

/-- The signed part of `LeaseSet2::serialize`, lease_set.rs:418-433, without the leading type byte. -/
def LeaseSet2.body (l : LeaseSet2) : Bytes :=
  l.header.serialize ++ be 2 0 ++ be 1 l.keys.length ++
    (l.keys.map (fun k => be 2 4 ++ be 2 32 ++ k)).flatten ++ be 1 l.leases.length ++
    (l.leases.map Lease.serialize2).flatten

/-- `LeaseSet2::serialize`, lease_set.rs:415-439; `sign` is `SigningPrivateKey::sign`. -/
def LeaseSet2.serialize (sign : Bytes → Bytes) (l : LeaseSet2) : Bytes := l.body ++ sign (be 1 3 ++ l.body)

/-- `LeaseSet2::is_expired`, lease_set.rs:442-447; `now` in nanoseconds since the epoch. -/
def LeaseSet2.isExpired (l : LeaseSet2) (now : Nat) : Bool :=
  decide (l.header.expires < now / 1000000000 % 2 ^ 32) || l.leases.all (fun x => decide (x.expires < now))

/-- `LeaseSet2::expires`, lease_set.rs:450-461 (seconds): the least of the header's and the leases' expirations. -/
def LeaseSet2.expires (l : LeaseSet2) : Nat :=
  (l.leases.map (fun x => x.expires / 1000000000 % 2 ^ 32)).foldl min l.header.expires

/-! ## Router addresses, capabilities and router info -/

/-- `TransportKind`, router_address.rs:39-47. -/
inductive Transport where
  | ntcp2 | ssu2
deriving Repr, DecidableEq

/-- `TryFrom<Str> for TransportKind`, router_address.rs:49-63: every name starting with "SSU" counts as SSU2. -/
def Transport.ofStr (s : Str) : Option Transport :=
  if [0x53, 0x53, 0x55].isPrefixOf s then some .ssu2
  else if [0x4e, 0x54, 0x43, 0x50, 0x32].isPrefixOf s then some .ntcp2
  else none

/-- `TransportKind::serialize`, router_address.rs:67-72. -/
def Transport.serialize : Transport → Bytes
  | .ntcp2 => Str.serialize [0x4e, 0x54, 0x43, 0x50, 0x32]
  | .ssu2 => Str.serialize [0x53, 0x53, 0x55, 0x32]

/-- "host", "port", "caps" and "netId". primitives/router_address.rs 119, 183, 203. -/
def kHost : Str := [0x68, 0x6f, 0x73, 0x74]
/-- primitives/router_address.rs 120, 184, 204. -/
def kPort : Str := [0x70, 0x6f, 0x72, 0x74]
/-- primitives/router_info.rs 111, 173. -/
def kCaps : Str := [0x63, 0x61, 0x70, 0x73]
/-- primitives/router_info.rs 93, 194. -/
def kNetId : Str := [0x6e, 0x65, 0x74, 0x49, 0x64]

/-- `RouterAddress`, router_address.rs:77-92. -/
structure RouterAddress where
  cost : Nat
  expires : Nat
  transport : Transport
  options : Options
  socket : Option (Bytes × Nat)
deriving Repr, DecidableEq

/-- The socket address computed while parsing, router_address.rs:202-218. -/
def socketOf (E : Env) (o : Options) : Option (Bytes × Nat) := do
  let host ← o.get kHost
  let port ← o.get kPort
  let port ← parseUInt 65535 port
  let ip ← E.parseIp host
  return (ip, port)

/-- `RouterAddress::parse_frame`, router_address.rs:196-231. -/
def RouterAddress.parse (E : Env) : Parser RouterAddress := fun input => do
  let (cost, rest) ← beU 1 input
  let (expires, rest) ← beU 8 rest
  let (name, rest) ← Str.parse E rest
  let (opts, rest) ← Mapping.parseMulti E rest
  let t ← Transport.ofStr name
  return ({ cost := cost, expires := expires, transport := t, options := Options.ofList opts,
            socket := socketOf E (Options.ofList opts) }, rest)

/-- `RouterAddress::serialize`, router_address.rs:239-260 (entries in key order). -/
def RouterAddress.serialize (a : RouterAddress) : Bytes :=
  be 1 a.cost ++ be 8 a.expires ++ a.transport.serialize ++ Mapping.serializeMulti a.options

/-- `Bandwidth`, capabilities.rs:23-46. -/
inductive Bandwidth where
  | K | L | M | N | O | P | X
deriving Repr, DecidableEq

/-- `Bandwidth::parse`, capabilities.rs:50-81 (the letters are ASCII, so a substring test is a byte test). -/
def Bandwidth.parse (caps : Str) : Option Bandwidth :=
  if caps.contains 75 then some .K
  else if caps.contains 76 then some .L
  else if caps.contains 77 then some .M
  else if caps.contains 78 then some .N
  else if caps.contains 79 then some .O
  else if caps.contains 80 then some .P
  else if caps.contains 88 then some .X
  else none

/-- `Capabilities`, capabilities.rs:86-103. -/
structure Capabilities where
  caps : Str
  floodfill : Bool
  bandwidth : Option Bandwidth
  reachable : Bool
  usable : Bool
deriving Repr, DecidableEq

/-- `Capabilities::parse`, capabilities.rs:112-125 (never fails). -/
def Capabilities.parse (caps : Str) : Capabilities :=
  { caps := caps, floodfill := caps.contains 102, bandwidth := Bandwidth.parse caps
    usable := !(caps.contains 69 || caps.contains 71), reachable := !(caps.contains 85 || caps.contains 72) }

/-- `Capabilities::is_fast`, capabilities.rs:135-139. -/
def Capabilities.isFast (c : Capabilities) : Bool :=
  match c.bandwidth with | some .O | some .P | some .X => true | _ => false
/-- `Capabilities::is_standard`, capabilities.rs:142-149. -/
def Capabilities.isStandard (c : Capabilities) : Bool :=
  match c.bandwidth with | some .K | some .L | some .M | some .N => true | _ => false

/-- `RouterInfo::addresses`: at most one address per transport. primitives/router_info.rs 46. -/
structure Addresses where
  ntcp2 : Option RouterAddress
  ssu2 : Option RouterAddress
deriving Repr, DecidableEq

/-- `RouterInfo`, router_info.rs:44-62. -/
structure RouterInfo where
  addresses : Addresses
  capabilities : Capabilities
  identity : RouterIdentity
  netId : Nat
  options : Options
  published : Nat
deriving Repr, DecidableEq

/-- "prefer `RouterAddress` which has a socket address specified", router_info.rs:146-155. -/
def preferAddr (old : Option RouterAddress) (a : RouterAddress) : Option RouterAddress :=
  match old with
  | none => some a
  | some o => if o.socket.isNone then some a else some o

/-- The insertion of a parsed address, router_info.rs:146-155. -/
def Addresses.insert (s : Addresses) (a : RouterAddress) : Addresses :=
  match a.transport with
  | .ntcp2 => { s with ntcp2 := preferAddr s.ntcp2 a }
  | .ssu2 => { s with ssu2 := preferAddr s.ssu2 a }

/-- The address loop, router_info.rs:140-166. -/
def RouterInfo.parseAddrs (E : Env) : Nat → Addresses → Parser Addresses
  | 0, s, rest => some (s, rest)
  | n + 1, s, rest => do
    let (a, rest) ← RouterAddress.parse E rest
    RouterInfo.parseAddrs E n (s.insert a) rest

/-- `RouterInfo::parse_frame`, router_info.rs:136-239. -/
def RouterInfo.parse (E : Env) : Parser RouterInfo := fun input => do
  let (identity, rest) ← RouterIdentity.parse E input
  let (published, rest) ← beU 8 rest
  let (n, rest) ← beU 1 rest
  let (addrs, rest) ← RouterInfo.parseAddrs E n ⟨none, none⟩ rest
  let (_, rest) ← beU 1 rest
  let (opts, rest) ← Mapping.parseMulti E rest
  let options := Options.ofList opts
  let caps ← options.get kCaps
  let net ← options.get kNetId
  let netId ← parseUInt 255 net
  let _ ← E.check (.ed25519 identity.signingKey) (input.take (input.length - 64)) rest
  return ({ addresses := addrs, capabilities := Capabilities.parse caps, identity := identity, netId := netId,
            options := options, published := published }, rest)

/-- The addresses in `RouterInfo::serialize`, router_info.rs:275-286; `none` is the panic. -/
def Addresses.serialize (s : Addresses) : Option Bytes :=
  match s.ntcp2, s.ssu2 with
  | some a, some b => some (be 1 2 ++ a.serialize ++ b.serialize)
  | some a, none => some (be 1 1 ++ a.serialize)
  | none, some b => some (be 1 1 ++ b.serialize)
  | none, none => none

/-- `RouterInfo::serialize`, router_info.rs:242-296. -/
def RouterInfo.serialize (sign : Bytes → Bytes) (r : RouterInfo) : Option Bytes := do
  let a ← r.addresses.serialize
  let body := r.identity.serialize ++ be 8 r.published ++ a ++ be 1 0 ++ Mapping.serializeMulti r.options
  return body ++ sign body

/-- `RouterInfo::is_reachable`, router_info.rs:312-334. -/
def RouterInfo.isReachable (r : RouterInfo) : Bool :=
  r.capabilities.reachable &&
    (let pub (a : Option RouterAddress) : Bool := match a with
      | some a => (a.options.get kHost).isSome && (a.options.get kPort).isSome
      | none => false
     pub r.addresses.ntcp2 || pub r.addresses.ssu2)

end Emissary.Prim
