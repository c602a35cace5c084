import Verif.Model.Bytes
/-!
# DSA-SHA1 signatures and AEAD nonces

Models `emissary-core/src/crypto/dsa.rs`, the DSA case of `SigningPublicKey` in `crypto/mod.rs`, and the nonces of `crypto/chachapoly.rs`.
`BigUint` is `Nat`; SHA-1, the AEAD and the other kinds of signatures are parameters.
-/
namespace Emissary.Dsa
open Emissary

/-! ## DSA -/

/-- `I2P_DSA_P` (dsa.rs 33-39). -/
def P : Nat := 0x9C05B2AA960D9B97B8931963C9CC9E8C3026E9B8ED92FAD0A69CC886D5BF8015FCADAE31A0AD18FAB3F01B00A358DE237655C4964AFAA2B337E96AD316B9FB1CC564B5AEC5B69A9FF6C3E4548707FEF8503D91DD8602E867E6D35D2235C1869CE2479C3B9D5401DE04E0727FB33D6511285D4CF29538D9E3B6051F5B22CC1C93

/-- `I2P_DSA_Q` (dsa.rs 42). -/
def Q : Nat := 0xA5DFC28FEF4CA1E286744CD8EED9D29D684046B7

/-- `I2P_DSA_G` (dsa.rs 45-51). -/
def G : Nat := 0x0C1F4D27D40093B429E962D7223824E0BBC47E7C832A39236FC683AF84889581075FF9082ED32353D4374D7301CDA1D23C431F4698599DDA02451824FF369752593647CC3DDC197DE985E43D136CDCFC6BD5409CD2F450821142A5E6F8EB1C3AB5D0484B8129FCF17BCE4F7F33321C3CB3DBB14A905E7B2B3E93BE4708CBCC82

/-- `DSA_QM2` (dsa.rs 56). -/
def QM2 : Nat := Q - 1 - 1

/-- Square and multiply, with as many squarings as `fuel`. Standard or external library, not in /repo. -/
def modpowLoop (n : Nat) : Nat → Nat → Nat → Nat → Nat
  | 0, _, _, acc => acc
  | fuel + 1, b, e, acc => modpowLoop n fuel (b * b % n) (e / 2) (if e % 2 = 1 then acc * b % n else acc)

/-- `BigUint::modpow`; the number of bits of the exponent is enough fuel. Standard or external library, not in /repo. -/
def modpow (b e n : Nat) : Nat := modpowLoop n (e.log2 + 1) (b % n) e (1 % n)

/-- The bytes of a number without leading zeroes, `BigUint::to_bytes_be` (a single zero byte for 0). -/
def toBytesBe (n : Nat) : Bytes :=
  if n = 0 then [0] else be ((n.log2) / 8 + 1) n

/-- `rectify` (dsa.rs 66-82). `none`: the panic for a number that is too big. -/
def rectify (n len : Nat) : Option Bytes :=
  let b := toBytesBe n
  if b.length = len then some b
  else if b.length > len then none
  else some (List.replicate (len - b.length) 0 ++ b)

/-- `DsaPublicKey` (dsa.rs 127-131). -/
structure PublicKey where
  bi : Nat
  bytes : Bytes
deriving Repr, DecidableEq

/-- `DsaPublicKey::from_bytes` (dsa.rs 134-139). `none`: a panic. -/
def PublicKey.fromBytes (data : Bytes) : Option PublicKey := do
  let bytes ← rectify (unbe data) 128
  return ⟨unbe data, bytes⟩

/-- `DsaSignature` (dsa.rs 84-88). -/
structure Signature where
  rbar : Bytes
  sbar : Bytes
deriving Repr, DecidableEq

/-- `DsaSignature::from_bytes` (dsa.rs 103-112). -/
def Signature.fromBytes (data : Bytes) : Option Signature :=
  if data.length < 40 then none
  else some ⟨data.take 20, (data.drop 20).take 20⟩

/-- `DsaPublicKey::verify` (dsa.rs 147-176). -/
def PublicKey.verify (sha1 : Bytes → Bytes) (k : PublicKey) (msg : Bytes) (sig : Signature) : Bool :=
  let r := unbe sig.rbar
  let s := unbe sig.sbar
  if r = 0 ∨ r ≥ Q ∨ s = 0 ∨ s ≥ Q then false
  else
    let w := modpow s QM2 Q
    let hm := unbe (sha1 msg)
    let u1 := w * hm % Q
    let u2 := r * w % Q
    let v := (modpow G u1 P * modpow k.bi u2 P % P) % Q
    decide (v = r)

/-- `SigningPublicKey` (crypto/mod.rs 332-349): the other two kinds are given by what their crates accept. -/
inductive Key where
  | ed25519 (accepts : Bytes → Bytes → Bool)
  | p256 (accepts : Bytes → Bytes → Bool)
  | dsa (k : PublicKey)

/-- `SigningPublicKey::verify` (crypto/mod.rs 377-400). `p256::ecdsa::Signature::try_from` takes 64 bytes. -/
def Key.verify (sha1 : Bytes → Bytes) (k : Key) (msg sig : Bytes) : Bool :=
  match k with
  | .ed25519 accepts => decide (sig.length = 64) && accepts msg sig
  | .p256 accepts => decide (sig.length = 64) && accepts msg sig
  | .dsa k =>
    match Signature.fromBytes sig with
    | none => false
    | some s => k.verify sha1 msg s

/-- `SigningPublicKey::signature_len` (crypto/mod.rs 403-409). -/
def Key.sigLen : Key → Nat
  | .ed25519 _ => 64
  | .p256 _ => 64
  | .dsa _ => 40

/-! ## Nonces -/

/-- `Nonce` (chachapoly.rs 39-42): a `u64`. -/
structure Nonce where
  nonce : Nat
deriving Repr, DecidableEq

/-- `Nonce::next` (chachapoly.rs 55-66): nothing if the counter cannot be counted up. `to_le_bytes` is `be` reversed. -/
def Nonce.next (n : Nonce) : Nonce × Option Bytes :=
  if n.nonce + 1 < 2 ^ 64 then (⟨n.nonce + 1⟩, some (List.replicate 4 0 ++ (be 8 n.nonce).reverse))
  else (n, none)

/-- ChaCha20-Poly1305 under one key: nonce, associated data, text. -/
structure Aead where
  enc : Bytes → Bytes → Bytes → Bytes
  dec : Bytes → Bytes → Bytes → Option Bytes

/-- What a call comes to: the nonce ran out (`Error::NonceOverflow`), the AEAD refused, or a result.
Error type of crypto/chachapoly.rs 115-173. -/
inductive Res where
  | overflow
  | refused
  | ok (b : Bytes)
deriving Repr, DecidableEq

/-- `ChaChaPoly` (chachapoly.rs 70-76) under a key. -/
structure Cipher where
  nonce : Nonce
deriving Repr, DecidableEq

/-- `ChaChaPoly::new` and `with_nonce` (chachapoly.rs 80-105). -/
def Cipher.new : Cipher := ⟨⟨0⟩⟩
/-- crypto/chachapoly.rs 80-105. -/
def Cipher.withNonce (n : Nat) : Cipher := ⟨⟨n⟩⟩

/-- `encrypt`, `encrypt_with_ad`, `encrypt_with_ad_new` (chachapoly.rs 108-112, 127-154); `encrypt` has no associated data. -/
def Cipher.seal (A : Aead) (c : Cipher) (ad plain : Bytes) : Cipher × Res :=
  match c.nonce.next with
  | (n, none) => (⟨n⟩, .overflow)
  | (n, some b) => (⟨n⟩, .ok (A.enc b ad plain))

/-- `decrypt`, `decrypt_with_ad` (chachapoly.rs 115-122, 161-173). The nonce is used up whether or not the AEAD accepts. -/
def Cipher.open (A : Aead) (c : Cipher) (ad text : Bytes) : Cipher × Res :=
  match c.nonce.next with
  | (n, none) => (⟨n⟩, .overflow)
  | (n, some b) =>
    match A.dec b ad text with
    | none => (⟨n⟩, .refused)
    | some p => (⟨n⟩, .ok p)

/-- Calls one after another, with the associated data and the text of each. Not in the code: a fold of the steps. -/
def Cipher.sealAll (A : Aead) (c : Cipher) : List (Bytes × Bytes) → Cipher × List Res
  | [] => (c, [])
  | x :: xs => (((c.seal A x.1 x.2).1.sealAll A xs).1, (c.seal A x.1 x.2).2 :: ((c.seal A x.1 x.2).1.sealAll A xs).2)

/-- Not in the code: a fold of the steps. -/
def Cipher.openAll (A : Aead) (c : Cipher) : List (Bytes × Bytes) → Cipher × List Res
  | [] => (c, [])
  | x :: xs => (((c.open A x.1 x.2).1.openAll A xs).1, (c.open A x.1 x.2).2 :: ((c.open A x.1 x.2).1.openAll A xs).2)

end Emissary.Dsa
