import Verif.Props.WireNetDb
/-!
# C275 and C29: lease sets with offline keys, and leases of the first version
-/
namespace Emissary.Wire
open Emissary Emissary.Prim Field

/-- Common structures: a lease of the first version, with the end in milliseconds. -/
def firstLease (gateway : Bytes) (tunnel ms : Nat) : List Field := [raw gateway, num 4 tunnel, num 8 ms]

/-- C275, leases of the first version: they are made and read as the specification says. -/
theorem C275_first_lease (l : Lease) (h1 : l.router.length = 32) (h2 : l.tunnelId < 2 ^ 32) (h3 : l.expires / 1000000 < 2 ^ 64) (r : Bytes) :
    l.serialize1 = layout (firstLease l.router l.tunnelId (l.expires / 1000000)) ∧
    Lease.parse1 (layout (firstLease l.router l.tunnelId (l.expires / 1000000)) ++ r) = some (⟨l.router, l.tunnelId, l.expires / 1000000 * 1000000⟩, r) := by
  constructor
  · simp [Lease.serialize1, firstLease]
  · have e2 : l.tunnelId % 256 ^ 4 = l.tunnelId := Nat.mod_eq_of_lt (by omega)
    have e3 : l.expires / 1000000 % 256 ^ 8 = l.expires / 1000000 := Nat.mod_eq_of_lt (by omega)
    simp only [firstLease, layout_num, layout_raw, layout_nil, List.append_assoc, List.nil_append, Lease.parse1, takeN_append h1, beU_be, bind_some_pair, e2, e3]
    rfl

/-- Common structures: the number of a type of signature and the length of its key. -/
def keyType : VKey → Nat
  | .ed25519 _ => 7
  | .p256 _ => 1
  | .dsa _ => 0

/-- The bytes of a key. -/
def keyBytes : VKey → Bytes
  | .ed25519 k => k
  | .p256 k => k
  | .dsa k => k

/-- The keys an offline signature may be for: Ed25519 and P-256, with the length that belongs to the type, and accepted by the signature scheme. -/
def Transient (E : Env) : VKey → Prop
  | .ed25519 k => k.length = 32 ∧ E.keyOk (.ed25519 k) = true
  | .p256 k => k.length = 64 ∧ E.keyOk (.p256 k) = true
  | .dsa _ => False

/-- Common structures: what the destination signs of a transient key: when it expires (seconds), its type and the key. -/
def transient (until_ : Nat) (k : VKey) : List Field := [num 4 until_, num 2 (keyType k), raw (keyBytes k)]

/-- Common structures: a lease set of the second version with an offline signature (bit 0 of the flags), without its own signature. -/
def offlineLeaseSet (dest : Bytes) (published after : Nat) (unpublished : Bool) (until_ : Nat) (k : VKey) (offsig : Bytes) (options : List (Bytes × Bytes))
    (keys : List (Nat × Bytes)) (leases : List (Bytes × Nat × Nat)) : List Field :=
  [raw dest, num 4 published, num 2 after, num 2 ((if unpublished then 2 ^ 1 else 0) + 1)] ++ transient until_ k ++ [raw offsig] ++ mapping options ++
    num 1 keys.length :: (keys.flatMap fun k => [num 2 k.1, num 2 k.2.length, raw k.2]) ++
    num 1 leases.length :: leases.flatMap fun l => lease l.1 l.2.1 l.2.2

theorem transient_read (E : Env) (dk k : VKey) (until_ : Nat) (offsig r : Bytes) (hk : Transient E k) (hs : offsig.length = k.sigLen)
    (hv : E.verify dk (layout (transient until_ k)) offsig = true) :
    OfflineSignature.parse E dk (layout (transient until_ k) ++ (offsig ++ r)) = some (k, r) := by
  cases k with
  | ed25519 b =>
    obtain ⟨h1, h2⟩ := hk
    have e : layout (transient until_ (.ed25519 b)) ++ (offsig ++ r) = be 4 until_ ++ (be 2 7 ++ (b ++ (offsig ++ r))) := by simp [transient, keyType, keyBytes]
    have ht : (be 4 until_ ++ (be 2 7 ++ (b ++ (offsig ++ r)))).take (6 + 32) = layout (transient until_ (.ed25519 b)) := by
      rw [← e]
      exact List.take_left' (by simp [transient, keyType, keyBytes, be_length, h1])
    rw [e]
    generalize layout (transient until_ (.ed25519 b)) = msg at ht hv
    have hm : E.mkKey (.ed25519 b) = some (.ed25519 b) := by simp [Env.mkKey, h2]
    have e7 : 7 % 256 ^ 2 = 7 := by decide
    simp only [OfflineSignature.parse, beU_be, bind_some_pair, e7,
      OfflineSignature.parseKey, if_true, takeN_append h1, hm, bind_some_val, Option.pure_def, takeN_append hs, ht, Env.check_ok hv]
  | p256 b =>
    obtain ⟨h1, h2⟩ := hk
    have e : layout (transient until_ (.p256 b)) ++ (offsig ++ r) = be 4 until_ ++ (be 2 1 ++ (b ++ (offsig ++ r))) := by simp [transient, keyType, keyBytes]
    have ht : (be 4 until_ ++ (be 2 1 ++ (b ++ (offsig ++ r)))).take (6 + 64) = layout (transient until_ (.p256 b)) := by
      rw [← e]
      exact List.take_left' (by simp [transient, keyType, keyBytes, be_length, h1])
    rw [e]
    generalize layout (transient until_ (.p256 b)) = msg at ht hv
    have hm : E.mkKey (.p256 b) = some (.p256 b) := by simp [Env.mkKey, h2]
    have e7 : 1 % 256 ^ 2 = 1 := by decide
    simp only [OfflineSignature.parse, beU_be, bind_some_pair, e7,
      OfflineSignature.parseKey, show ¬ (1 = 7) by decide, if_false, if_true, takeN_append h1, hm, bind_some_val, Option.pure_def, takeN_append hs, ht, Env.check_ok hv]
  | dsa b => cases hk

/-- C275, offline keys: a lease set signed with a transient key that the destination signed is read, with that key, if the signatures of the destination and
of the transient key have the same length. -/
theorem C275_offline_read_partial (E : Env) (d : Destination) (hd : ∀ r, Destination.parse E (d.serialized ++ r) = some (d, r)) (published after : Nat) (unpublished : Bool)
    (until_ : Nat) (k : VKey) (offsig : Bytes) (options : List (Bytes × Bytes)) (keys : List (Nat × Bytes)) (leases : List (Bytes × Nat × Nat)) (sig r : Bytes)
    (h1 : published < 2 ^ 32) (h2 : after < 2 ^ 16) (h3 : OptionsFit E options)
    (h4 : ∀ k ∈ keys, k.1 < 2 ^ 16 ∧ k.2.length < 2 ^ 16 ∧ (k.1 = 4 → k.2.length = 32)) (h5 : keys.length < 2 ^ 8) (h6 : ∃ k ∈ keys, k.1 = 4)
    (h7 : ∀ x ∈ leases, x.1.length = 32 ∧ x.2.1 < 2 ^ 32 ∧ x.2.2 < 2 ^ 32) (h8 : 0 < leases.length) (h9 : leases.length ≤ 16)
    (hk : Transient E k) (hsame : d.key.sigLen = k.sigLen) (ho : offsig.length = d.key.sigLen) (hv : E.verify d.key (layout (transient until_ k)) offsig = true)
    (h10 : sig.length = k.sigLen)
    (h11 : E.verify k (leaseSetSigned (layout (offlineLeaseSet d.serialized published after unpublished until_ k offsig options keys leases))) sig = true) :
    LeaseSet2.parse E (layout (offlineLeaseSet d.serialized published after unpublished until_ k offsig options keys leases) ++ (sig ++ r)) =
      some ({ header := { destination := d, expires := min (published + after) (2 ^ 32 - 1), offline := some k, published := published, unpublished := unpublished }
              keys := (keys.filter fun k => k.1 = 4).map (·.2), leases := leasesOf leases }, r) := by
  generalize hbody : layout (offlineLeaseSet d.serialized published after unpublished until_ k offsig options keys leases) = body at h11
  have a1 : published % 256 ^ 4 = published := Nat.mod_eq_of_lt (by omega)
  have a2 : after % 256 ^ 2 = after := Nat.mod_eq_of_lt (by omega)
  have a3 : keys.length % 256 ^ 1 = keys.length := Nat.mod_eq_of_lt (by omega)
  have a4 : leases.length % 256 ^ 1 = leases.length := Nat.mod_eq_of_lt (by omega)
  have a5 : ((if unpublished then 2 ^ 1 else 0) + 1) % 256 ^ 2 = (if unpublished then 2 ^ 1 else 0) + 1 := by cases unpublished <;> rfl
  have a6 : ¬ ((if unpublished then 2 ^ 1 else 0) + 1) % 2 = 0 := by cases unpublished <;> decide
  have a7 : decide (((if unpublished then 2 ^ 1 else 0) + 1) / 2 % 2 = 1) = unpublished := by cases unpublished <;> rfl
  have b1 : ((keys.filter fun k => k.1 = 4).map (·.2)).isEmpty = false := by
    obtain ⟨k, hk, hk4⟩ := h6
    rw [List.isEmpty_eq_false_iff]
    exact List.ne_nil_of_mem (List.mem_map_of_mem (List.mem_filter.mpr ⟨hk, by simpa using hk4⟩))
  have b2 : ¬ (leases.length > 16 ∨ leases.length = 0) := by omega
  have hoff : ∀ x, OfflineSignature.parse E d.key (layout (transient until_ k) ++ (offsig ++ x)) = some (k, x) :=
    fun x => transient_read E d.key k until_ offsig x hk (ho.trans hsame) hv
  have hb : ∀ x, body ++ x = d.serialized ++ (be 4 published ++ (be 2 after ++ (be 2 ((if unpublished then 2 ^ 1 else 0) + 1) ++ (layout (transient until_ k) ++ (offsig ++
      (layout (mapping options) ++ (be 1 keys.length ++ (layout (keys.flatMap fun k => [num 2 k.1, num 2 k.2.length, raw k.2]) ++ (be 1 leases.length ++
      (layout (leases.flatMap fun l => lease l.1 l.2.1 l.2.2) ++ x)))))))))) := by
    intro x
    rw [← hbody]
    simp only [offlineLeaseSet, layout_append, layout_num, layout_raw, layout_nil, List.append_assoc, List.cons_append, List.nil_append]
  have hcheck : LeaseSet2.checkSig E { destination := d, expires := min (published + after) (2 ^ 32 - 1), offline := some k, published := published, unpublished := unpublished }
      (body ++ (sig ++ r)) (sig ++ r) = some ((), r) := by
    have hs : sig.length = d.key.sigLen := h10.trans hsame.symm
    have ht : (body ++ (sig ++ r)).take ((body ++ (sig ++ r)).length - r.length - d.key.sigLen) = body := by
      apply List.take_left'
      simp [hs]; omega
    simp only [LeaseSet2.checkSig, takeN_append hs, bind_some_pair, ht, Option.getD_some]
    rw [show be 1 3 ++ body = leaseSetSigned body from rfl, Env.check_ok h11]
    rfl
  unfold LeaseSet2.parse
  conv => lhs; rw [hb]
  simp only [LsHeader.parse, LsHeader.parseOffline, hd, bind_some_pair, beU_be, a1, a2, a3, a4, a5, if_neg a6, a7, hoff, Option.pure_def, mapping_read h3, keys_read keys _ h4, b1,
    Bool.false_eq_true, if_false, if_neg b2, leases_read leases _ h7]
  rw [← hb, hcheck]
  rfl

/-- C275 is violated for a destination with a DSA key: a lease set signed with a transient key that the destination signed is not read, because the signature
of the transient key is taken to be as long as those of the transient key. -/
theorem C275_offline_length_violated (E : Env) (hE : ∀ k m s, E.verify k m s = true → s.length = k.sigLen) (d : Destination) (dsa : Bytes) (hdsa : d.key = .dsa dsa)
    (hd : ∀ r, Destination.parse E (d.serialized ++ r) = some (d, r)) (published after : Nat) (unpublished : Bool) (until_ : Nat) (k : VKey) (hk : Transient E k) (offsig : Bytes)
    (options : List (Bytes × Bytes)) (keys : List (Nat × Bytes)) (leases : List (Bytes × Nat × Nat)) (r : Bytes)
    (h1 : published < 2 ^ 32) (h2 : after < 2 ^ 16) :
    LeaseSet2.parse E (layout (offlineLeaseSet d.serialized published after unpublished until_ k offsig options keys leases) ++ r) = none := by
  have a5 : ((if unpublished then 2 ^ 1 else 0) + 1) % 256 ^ 2 = (if unpublished then 2 ^ 1 else 0) + 1 := by cases unpublished <;> rfl
  have a6 : ¬ ((if unpublished then 2 ^ 1 else 0) + 1) % 2 = 0 := by cases unpublished <;> decide
  have hlen : k.sigLen = 64 := by cases k with
    | ed25519 _ => rfl
    | p256 _ => rfl
    | dsa _ => cases hk
  have hoff : ∀ x, OfflineSignature.parse E d.key (layout (transient until_ k) ++ x) = none := by
    intro x
    cases hp : OfflineSignature.parse E d.key (layout (transient until_ k) ++ x) with
    | none => rfl
    | some y =>
      exfalso
      simp only [OfflineSignature.parse] at hp
      obtain ⟨⟨u, r1⟩, e1, hp⟩ := Option.bind_eq_some_iff.mp hp
      obtain ⟨⟨kind, r2⟩, e2, hp⟩ := Option.bind_eq_some_iff.mp hp
      obtain ⟨⟨⟨t, n⟩, r3⟩, e3, hp⟩ := Option.bind_eq_some_iff.mp hp
      obtain ⟨⟨s, r4⟩, e4, hp⟩ := Option.bind_eq_some_iff.mp hp
      obtain ⟨_, e5, hp⟩ := Option.bind_eq_some_iff.mp hp
      simp only at e2 e3 e4 e5
      have ht : t.sigLen = 64 := by
        simp only [OfflineSignature.parseKey] at e3
        split at e3
        · obtain ⟨⟨b, r5⟩, f1, e3⟩ := Option.bind_eq_some_iff.mp e3
          obtain ⟨v, f2, e3⟩ := Option.bind_eq_some_iff.mp e3
          simp only [Env.mkKey] at f2
          split at f2
          · simp only [Option.some.injEq] at f2
            simp only [Option.pure_def, Option.some.injEq, Prod.mk.injEq] at e3
            rw [← e3.1.1, ← f2]; rfl
          · cases f2
        · split at e3
          · obtain ⟨⟨b, r5⟩, f1, e3⟩ := Option.bind_eq_some_iff.mp e3
            obtain ⟨v, f2, e3⟩ := Option.bind_eq_some_iff.mp e3
            simp only [Env.mkKey] at f2
            split at f2
            · simp only [Option.some.injEq] at f2
              simp only [Option.pure_def, Option.some.injEq, Prod.mk.injEq] at e3
              rw [← e3.1.1, ← f2]; rfl
            · cases f2
          · cases e3
      have hs := (takeN_some e4).2
      simp only [Env.check] at e5
      split at e5
      · rename_i hv
        have := hE _ _ _ hv
        rw [hdsa] at this
        simp only [VKey.sigLen] at this
        omega
      · cases e5
  unfold LeaseSet2.parse
  have a1 : published % 256 ^ 4 = published := Nat.mod_eq_of_lt (by omega)
  simp only [offlineLeaseSet, layout_append, layout_num, layout_raw, List.append_assoc, List.cons_append, List.nil_append, LsHeader.parse, LsHeader.parseOffline, hd, bind_some_pair,
    beU_be, a1, a5, if_neg a6, hoff]
  rfl

/-! ## Cases that meet the hypotheses -/

example := C275_first_lease ⟨List.replicate 32 1, 77, 5000000⟩ (by decide) (by decide) (by decide) [9]
example : Transient Env.sample (.ed25519 (List.replicate 32 9)) ∧ Transient Env.sample (.p256 (List.replicate 64 9)) := by
  refine ⟨⟨by decide, by decide +kernel⟩, ⟨by decide, by decide +kernel⟩⟩
/-- The signature the sample environment accepts. -/
def sampleSig (m : Bytes) : Bytes := UInt8.ofNat m.length :: List.replicate 63 0
/-- A lease set with a transient P-256 key. -/
def withTransient : Bytes :=
  layout (offlineLeaseSet someone.serialized 1000 600 false 5000 (.p256 (List.replicate 64 9)) (sampleSig (layout (transient 5000 (.p256 (List.replicate 64 9))))) []
    [(4, List.replicate 32 2)] [(List.replicate 32 3, 9, 1500)])
example : Env.sample.verify someone.key (layout (transient 5000 (.p256 (List.replicate 64 9)))) (sampleSig (layout (transient 5000 (.p256 (List.replicate 64 9))))) = true ∧
    Env.sample.verify (.p256 (List.replicate 64 9)) (leaseSetSigned withTransient) (sampleSig (leaseSetSigned withTransient)) = true ∧
    (LeaseSet2.parse Env.sample (withTransient ++ (sampleSig (leaseSetSigned withTransient) ++ [1]))).map (fun x => (x.1.header.offline, x.2)) =
      some (some (.p256 (List.replicate 64 9)), [1]) := by decide +kernel
/-- An environment whose signatures have the length of the key's. -/
def strictE : Env := { Env.sample with verify := fun k _ s => decide (s.length = k.sigLen) }
/-- A destination with a DSA key. -/
def old : Destination := ⟨strictE.sha256 (List.replicate 384 1 ++ [0, 0, 0]), List.replicate 384 1 ++ [0, 0, 0], .dsa (List.replicate 128 1)⟩
theorem dsa_read (E : Env) (init r : Bytes) (h : init.length = 384) (hk : E.keyOk (.dsa (init.drop 256)) = true) :
    Destination.parse E (init ++ (be 1 0 ++ be 2 0) ++ r) = some (⟨E.sha256 (init ++ (be 1 0 ++ be 2 0)), init ++ (be 1 0 ++ be 2 0), .dsa (init.drop 256)⟩, r) := by
  have h0 : ¬ (init ++ (be 1 0 ++ be 2 0) ++ r).length < 387 := by simp [be_length, h]; omega
  have h2 : (init ++ (be 1 0 ++ be 2 0) ++ r).take 387 = init ++ (be 1 0 ++ be 2 0) := List.take_left' (by simp [be_length, h])
  have h1 : takeN 384 (init ++ (be 1 0 ++ be 2 0) ++ r) = some (init, be 1 0 ++ (be 2 0 ++ r)) := by rw [List.append_assoc, takeN_append h, List.append_assoc]
  have h4 : E.mkKey (.dsa (init.drop 256)) = some (.dsa (init.drop 256)) := by simp [Env.mkKey, hk]
  unfold Destination.parse
  rw [if_neg h0, h1]
  simp only [bind_some_pair, beU_be, Nat.zero_mod, Destination.parseCert, if_true, h4, bind_some_val, Option.pure_def, h2]

theorem old_read (r : Bytes) : Destination.parse strictE (old.serialized ++ r) = some (old, r) := dsa_read strictE (List.replicate 384 1) r List.length_replicate (by decide +kernel)

example := C275_offline_length_violated strictE (fun k m s h => by simpa [strictE] using h) old (List.replicate 128 1) rfl old_read 1000 600 false 5000
  (.ed25519 (List.replicate 32 9)) ⟨by decide, by decide +kernel⟩ (List.replicate 40 3) [] [(4, List.replicate 32 2)] [(List.replicate 32 3, 9, 1500)] [] (by decide) (by decide)

end Emissary.Wire
