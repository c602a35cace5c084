import Verif.Model.Ssu2Handshake
import Verif.Props.Ssu2Block
import Verif.Props.Ntcp2Session
/-!
# Lemmas on SSU2 header masking
-/
namespace Emissary.Ssu2
open Emissary Emissary.I2np Emissary.Ntcp2

/-- The primitives behave: the AEAD opens what it sealed and adds 16 bytes, the keystream has the length asked for. -/
structure Crypto.Lawful (C : Crypto) : Prop where
  aead : C.A.Lawful
  ks : ∀ k iv n, (C.ks k iv n).length = n

/-- XOR of two byte strings. -/
abbrev xr (a m : Bytes) : Bytes := List.zipWith (· ^^^ ·) a m

theorem xr_length (a m : Bytes) (h : a.length = m.length) : (xr a m).length = a.length := by
  simp [xr, h]

theorem xr_xr (a m : Bytes) (h : a.length = m.length) : xr (xr a m) m = a := by
  induction a generalizing m with
  | nil => simp [xr]
  | cons x a ih =>
    cases m with
    | nil => simp at h
    | cons y m =>
      simp only [xr, List.zipWith_cons_cons]
      have := ih m (by simpa using h)
      simp only [xr] at this
      rw [this, UInt8.xor_assoc, UInt8.xor_self, UInt8.xor_zero]

theorem xorAt_mid (off : Nat) (mask a b c : Bytes) (ha : a.length = off) (hb : b.length = mask.length) :
    xorAt off mask (a ++ (b ++ c)) = a ++ (xr b mask ++ c) := by
  subst ha
  have h1 : List.zipWith (fun x1 x2 => x1 ^^^ x2) (b ++ c) mask = xr b mask := by
    have := List.zipWith_append (f := fun x1 x2 : UInt8 => x1 ^^^ x2) (l₁ := b) (l₁' := c) (l₂ := mask) (l₂' := []) hb
    simpa [xr] using this
  simp only [xorAt, List.take_left, List.drop_left, h1, List.append_assoc]
  rw [show a.length + mask.length = a.length + b.length by omega, ← List.drop_drop, List.drop_left, List.drop_left]

theorem xorAt_zero (mask b c : Bytes) (hb : b.length = mask.length) : xorAt 0 mask (b ++ c) = xr b mask ++ c :=
  xorAt_mid 0 mask [] b c rfl hb

/-- The two initialization vectors of a payload. -/
def iv1 (p : Bytes) : Bytes := (p.drop (p.length - 24)).take 12
def iv2 (p : Bytes) : Bytes := p.drop (p.length - 12)

theorem iv1_append (h p : Bytes) (hp : 24 ≤ p.length) : iv1 (h ++ p) = iv1 p := by
  simp only [iv1, List.length_append]
  rw [show h.length + p.length - 24 = h.length + (p.length - 24) by omega, ← List.drop_drop, List.drop_left]

theorem iv2_append (h p : Bytes) (hp : 12 ≤ p.length) : iv2 (h ++ p) = iv2 p := by
  simp only [iv2, List.length_append]
  rw [show h.length + p.length - 12 = h.length + (p.length - 12) by omega, ← List.drop_drop, List.drop_left]

theorem obfuscate_eq {C : Crypto} (hC : C.Lawful) (k1 k2 a b t p : Bytes) (ha : a.length = 8) (hb : b.length = 8)
    (hp : 24 ≤ p.length) :
    obfuscate C k1 k2 (a ++ (b ++ t)) p = .ok (xr a (C.ks k1 (iv1 p) 8) ++ (xr b (C.ks k2 (iv2 p) 8) ++ t)) := by
  rw [obfuscate, if_neg (by omega)]
  show Res.ok (xorAt 8 (C.ks k2 (iv2 p) 8) (xorAt 0 (C.ks k1 (iv1 p) 8) _)) = _
  rw [xorAt_zero _ _ _ (by rw [ha, hC.ks]), xorAt_mid 8 _ _ _ _ (by rw [xr_length _ _ (by rw [ha, hC.ks]), ha]) (by rw [hb, hC.ks])]

theorem maskTail_eq {C : Crypto} (hC : C.Lawful) (k : Bytes) (n : Nat) (a b t : Bytes) (ha : a.length = 8) (hb : b.length = 8)
    (ht : t.length = n) : maskTail C k n (a ++ (b ++ t)) = a ++ (b ++ xr t (C.ks k zeroIv n)) := by
  have := xorAt_mid 16 (C.ks k zeroIv n) (a ++ b) t [] (by simp [ha, hb]) (by rw [ht, hC.ks])
  simpa [maskTail, List.append_assoc] using this

theorem new_eq (k1 pkt : Bytes) (h : 24 ≤ pkt.length) : Reader.new k1 pkt = some ⟨k1, iv1 pkt, iv2 pkt, pkt⟩ := by
  rw [Reader.new, if_neg (by omega)]; rfl

theorem new_none (k1 pkt : Bytes) (h : pkt.length < 24) : Reader.new k1 pkt = none := by
  rw [Reader.new, if_pos h]

/-- The reader unmasks the first half of the header. -/
theorem dstId_eq {C : Crypto} (hC : C.Lawful) (k1 i1 i2 a r : Bytes) (ha : a.length = 8) :
    Reader.dstId C ⟨k1, i1, i2, xr a (C.ks k1 i1 8) ++ r⟩ = (unle a, ⟨k1, i1, i2, a ++ r⟩) := by
  simp only [Reader.dstId, Reader.mask]
  rw [xorAt_zero _ _ _ (by rw [xr_length _ _ (by rw [ha, hC.ks]), ha, hC.ks]), xr_xr _ _ (by rw [ha, hC.ks]),
    List.take_left' (by rw [ha])]

/-- The reader unmasks the second half. -/
theorem mask8_eq {C : Crypto} (hC : C.Lawful) (k1 k2 i1 i2 a b r : Bytes) (ha : a.length = 8) (hb : b.length = 8) :
    Reader.mask C ⟨k1, i1, i2, a ++ (xr b (C.ks k2 i2 8) ++ r)⟩ k2 i2 8 = ⟨k1, i1, i2, a ++ (b ++ r)⟩ := by
  simp only [Reader.mask]
  rw [xorAt_mid 8 _ _ _ _ ha (by rw [xr_length _ _ (by rw [hb, hC.ks]), hb, hC.ks]), xr_xr _ _ (by rw [hb, hC.ks])]

/-- … and the tail. -/
theorem tail_eq {C : Crypto} (hC : C.Lawful) (k1 k2 i1 i2 a b t r : Bytes) (n : Nat) (ha : a.length = 8) (hb : b.length = 8)
    (ht : t.length = n) :
    Reader.tail C ⟨k1, i1, i2, a ++ (b ++ (xr t (C.ks k2 zeroIv n) ++ r))⟩ k2 n = .ok ⟨k1, i1, i2, a ++ (b ++ (t ++ r))⟩ := by
  have hx : (xr t (C.ks k2 zeroIv n)).length = n := by rw [xr_length _ _ (by rw [ht, hC.ks]), ht]
  rw [Reader.tail, if_neg (by simp only [List.length_append, ha, hb, hx]; omega)]
  have := xorAt_mid 16 (C.ks k2 zeroIv n) (a ++ b) (xr t (C.ks k2 zeroIv n)) r (by simp [ha, hb]) (by rw [hx, hC.ks])
  simp only [List.append_assoc] at this
  simp only [this, xr_xr t (C.ks k2 zeroIv n) (by rw [ht, hC.ks])]

/-- The second half of a header. -/
def half2 (pktNum ty version net flag : Nat) : Bytes := be 4 pktNum ++ be 1 ty ++ be 1 version ++ be 1 net ++ be 1 flag

theorem half2_length (n t v m f : Nat) : (half2 n t v m f).length = 8 := by simp [half2]

theorem slice_pre (a b : Bytes) (m n : Nat) : slice (a ++ b) (a.length + m) (a.length + n) = slice b m n := by
  simp only [slice]
  rw [← List.drop_drop, List.drop_left, show a.length + n - (a.length + m) = n - m by omega]

theorem slice_pre8 (a b : Bytes) (ha : a.length = 8) (m n : Nat) : slice (a ++ b) (8 + m) (8 + n) = slice b m n := by
  rw [← ha]; exact slice_pre a b m n

theorem slice_hd (b c : Bytes) (n : Nat) (hb : b.length = n) : slice (b ++ c) 0 n = b := by
  simp [slice, List.take_left' hb]

theorem slice_mid (a b c : Bytes) (m n : Nat) (ha : a.length = m) (hb : b.length = n - m) : slice (a ++ (b ++ c)) m n = b := by
  simp only [slice]
  rw [← ha, List.drop_left, ha, List.take_left' hb]

theorem fields (a : Bytes) (ha : a.length = 8) (n t v m f : Nat) (hn : n < 2 ^ 32) (ht : t < 256) (hv : v < 256) (hm : m < 256) (r : Bytes) :
    unbe (slice (a ++ (half2 n t v m f ++ r)) 12 13) = t ∧ unbe (slice (a ++ (half2 n t v m f ++ r)) 13 14) = v ∧
    unbe (slice (a ++ (half2 n t v m f ++ r)) 14 15) = m ∧ unbe (slice (a ++ (half2 n t v m f ++ r)) 8 12) = n := by
  simp only [half2, List.append_assoc]
  refine ⟨?_, ?_, ?_, ?_⟩
  · have := slice_mid (a ++ be 4 n) (be 1 t) (be 1 v ++ (be 1 m ++ (be 1 f ++ r))) 12 13 (by simp [ha]) (by simp)
    simp only [List.append_assoc] at this
    rw [this, unbe_be]; exact Nat.mod_eq_of_lt ht
  · have := slice_mid (a ++ (be 4 n ++ be 1 t)) (be 1 v) (be 1 m ++ (be 1 f ++ r)) 13 14 (by simp [ha]) (by simp)
    simp only [List.append_assoc] at this
    rw [this, unbe_be]; exact Nat.mod_eq_of_lt hv
  · have := slice_mid (a ++ (be 4 n ++ (be 1 t ++ be 1 v))) (be 1 m) (be 1 f ++ r) 14 15 (by simp [ha]) (by simp)
    simp only [List.append_assoc] at this
    rw [this, unbe_be]; exact Nat.mod_eq_of_lt hm
  · have := slice_mid a (be 4 n) (be 1 t ++ (be 1 v ++ (be 1 m ++ (be 1 f ++ r)))) 8 12 ha (by simp)
    rw [this, unbe_be]; exact Nat.mod_eq_of_lt (by simpa using hn)

/-- What is left of a packet when the first half of its header has been unmasked with a key. -/
def unmasked (C : Crypto) (key pkt : Bytes) : Bytes := xorAt 0 (C.ks key (iv1 pkt) 8) pkt

theorem unmasked_eq {C : Crypto} (hC : C.Lawful) (key a r p : Bytes) (ha : a.length = 8) (hp : 24 ≤ p.length) :
    unmasked C key (xr a (C.ks key (iv1 p) 8) ++ (r ++ p)) = a ++ (r ++ p) := by
  rw [unmasked, ← List.append_assoc, iv1_append _ _ hp, List.append_assoc,
    xorAt_zero _ _ _ (by rw [xr_length _ _ (by rw [ha, hC.ks]), ha, hC.ks]), xr_xr _ _ (by rw [ha, hC.ks])]

theorem iv1_3 (a b t p : Bytes) (hp : 24 ≤ p.length) : iv1 (a ++ (b ++ (t ++ p))) = iv1 p := by
  rw [← List.append_assoc, ← List.append_assoc, iv1_append _ _ hp]

theorem iv2_3 (a b t p : Bytes) (hp : 24 ≤ p.length) : iv2 (a ++ (b ++ (t ++ p))) = iv2 p := by
  rw [← List.append_assoc, ← List.append_assoc, iv2_append _ _ (by omega)]

/-- What `parse` makes of a header once it is unmasked. -/
theorem parse_long {C : Crypto} (hC : C.Lawful) (k1 k2 i1 i2 a t r : Bytes) (n ty net : Nat) (ha : a.length = 8) (hn : n < 2 ^ 32)
    (hnet : net < 256) :
    (ty = 0 → t.length = 48 → Reader.parse C ⟨k1, i1, i2, a ++ (xr (half2 n ty 2 net 0) (C.ks k2 i2 8) ++ (xr t (C.ks k2 zeroIv 48) ++ r))⟩ k2 =
      .ok (some (.sessionRequest (t.drop 16) net n (unle (slice t 8 16))), ⟨k1, i1, i2, a ++ (half2 n ty 2 net 0 ++ (t ++ r))⟩)) ∧
    (ty = 1 → t.length = 48 → Reader.parse C ⟨k1, i1, i2, a ++ (xr (half2 n ty 2 net 0) (C.ks k2 i2 8) ++ (xr t (C.ks k2 zeroIv 48) ++ r))⟩ k2 =
      .ok (some (.sessionCreated (t.drop 16) net n), ⟨k1, i1, i2, a ++ (half2 n ty 2 net 0 ++ (t ++ r))⟩)) ∧
    (ty = 9 → t.length = 16 → Reader.parse C ⟨k1, i1, i2, a ++ (xr (half2 n ty 2 net 0) (C.ks k2 i2 8) ++ (xr t (C.ks k2 zeroIv 16) ++ r))⟩ k2 =
      .ok (some (.retry net n (unle (t.drop 8))), ⟨k1, i1, i2, a ++ (half2 n ty 2 net 0 ++ (t ++ r))⟩)) ∧
    (ty = 10 → t.length = 16 → Reader.parse C ⟨k1, i1, i2, a ++ (xr (half2 n ty 2 net 0) (C.ks k2 i2 8) ++ (xr t (C.ks k2 zeroIv 16) ++ r))⟩ k2 =
      .ok (some (.tokenRequest net n (unle (t.take 8))), ⟨k1, i1, i2, a ++ (half2 n ty 2 net 0 ++ (t ++ r))⟩)) := by
  refine ⟨?_, ?_, ?_, ?_⟩ <;> intro e ht <;> subst e
  all_goals
    rw [Reader.parse]
    simp only [mask8_eq hC k1 k2 i1 i2 a (half2 n _ 2 net 0) _ ha (half2_length ..)]
    have F := fun ty (hty : ty ≤ 10) (X : Bytes) => fields a ha n ty 2 net 0 hn (by omega) (by decide) hnet X
    simp only [F 0 (by decide), F 1 (by decide), F 9 (by decide), F 10 (by decide), ne_eq, not_true_eq_false, if_false, tail_eq hC k1 k2 i1 i2 a (half2 n _ 2 net 0) t r _ ha (half2_length ..) ht,
      ok_bind]
  all_goals
    have hs : ∀ x y b, b.length = 8 → slice (a ++ (b ++ (t ++ r))) (8 + (8 + x)) (8 + (8 + y)) = slice (t ++ r) x y := by
      intro x y b hb
      rw [slice_pre8 _ _ ha, slice_pre8 _ _ hb]
  · have h1 := hs 16 48 (half2 n 0 2 net 0) (half2_length ..)
    have h2 := hs 8 16 (half2 n 0 2 net 0) (half2_length ..)
    simp only [Nat.reduceAdd] at h1 h2
    have e1 : slice (t ++ r) 16 48 = t.drop 16 := by
      rw [slice, List.drop_append_of_le_length (by omega), List.take_left' (by simp [ht])]
    have e2 : slice (t ++ r) 8 16 = slice t 8 16 := by
      simp only [slice]
      rw [List.drop_append_of_le_length (by omega), List.take_append_of_le_length (by simp; omega)]
    rw [h1, h2, e1, e2]; rfl
  · have h1 := hs 16 48 (half2 n 1 2 net 0) (half2_length ..)
    simp only [Nat.reduceAdd] at h1
    have e1 : slice (t ++ r) 16 48 = t.drop 16 := by
      rw [slice, List.drop_append_of_le_length (by omega), List.take_left' (by simp [ht])]
    rw [h1, e1]; rfl
  · have h1 := hs 8 16 (half2 n 9 2 net 0) (half2_length ..)
    simp only [Nat.reduceAdd] at h1
    have e1 : slice (t ++ r) 8 16 = t.drop 8 := by
      rw [slice, List.drop_append_of_le_length (by omega), List.take_left' (by simp [ht])]
    rw [h1, e1]; rfl
  · have h1 := hs 0 8 (half2 n 10 2 net 0) (half2_length ..)
    simp only [Nat.reduceAdd] at h1
    have e1 : slice (t ++ r) 0 8 = t.take 8 := by
      rw [slice, List.drop_zero, List.take_append_of_le_length (by omega)]
    rw [h1, e1]; rfl

theorem parse_short {C : Crypto} (hC : C.Lawful) (k1 k2 i1 i2 a r : Bytes) (n ty v net f : Nat) (ha : a.length = 8) (hn : n < 2 ^ 32)
    (hv : v < 256) (hnet : net < 256) :
    (ty = 2 → Reader.parse C ⟨k1, i1, i2, a ++ (xr (half2 n ty v net f) (C.ks k2 i2 8) ++ r)⟩ k2 =
      .ok (some (.sessionConfirmed n), ⟨k1, i1, i2, a ++ (half2 n ty v net f ++ r)⟩)) ∧
    (ty = 6 → Reader.parse C ⟨k1, i1, i2, a ++ (xr (half2 n ty v net f) (C.ks k2 i2 8) ++ r)⟩ k2 =
      .ok (some (.data n), ⟨k1, i1, i2, a ++ (half2 n ty v net f ++ r)⟩)) := by
  refine ⟨?_, ?_⟩ <;> intro e <;> subst e
  all_goals
    rw [Reader.parse]
    simp only [mask8_eq hC k1 k2 i1 i2 a (half2 n _ v net f) _ ha (half2_length ..)]
    have F := fun ty (hty : ty ≤ 10) => fields a ha n ty v net f hn (by omega) hv hnet r
    simp only [F 2 (by decide), F 6 (by decide)]

end Emissary.Ssu2
