import Verif.Model.TunnelData
import Verif.Lemmas.Codec
import Verif.Lemmas.StreamTx
/-!
# C46: layered tunnel encryption cancels out
-/
namespace Emissary.Tunnel
open Emissary Emissary.Stream

/-- What is assumed of AES-256: under every key the block function and its inverse are mutually inverse
permutations of 16-byte blocks. -/
structure Aes.Lawful (A : Aes) : Prop where
  encLen : ∀ k b, b.length = 16 → (A.enc k b).length = 16
  decLen : ∀ k b, b.length = 16 → (A.dec k b).length = 16
  decEnc : ∀ k b, b.length = 16 → A.dec k (A.enc k b) = b
  encDec : ∀ k b, b.length = 16 → A.enc k (A.dec k b) = b

theorem xor_length {a b : Bytes} (h : a.length = b.length) : (xor a b).length = a.length := by
  simp [xor, h]

theorem xor_xor (a b : Bytes) (h : a.length = b.length) : xor (xor a b) b = a := by
  induction a generalizing b with
  | nil => simp [xor]
  | cons x a ih =>
    cases b with
    | nil => simp at h
    | cons y b =>
      have := ih b (by simpa using h)
      simp only [xor, List.zipWith_cons_cons] at *
      rw [this]
      congr 1
      rw [UInt8.xor_assoc, UInt8.xor_self, UInt8.xor_zero]

theorem cbcDecBlocks_enc {A : Aes} (hA : A.Lawful) (key : Bytes) (bs : List Bytes) :
    ∀ iv, iv.length = 16 → (∀ b ∈ bs, b.length = 16) →
    cbcDecBlocks A key iv (cbcEncBlocks A key iv bs) = bs := by
  induction bs with
  | nil => intros; rfl
  | cons b bs ih =>
    intro iv hiv hbs
    have hb : b.length = 16 := hbs b (by simp)
    have hx : (xor b iv).length = 16 := by rw [xor_length (by omega), hb]
    simp only [cbcEncBlocks, cbcDecBlocks]
    rw [hA.decEnc _ _ hx, xor_xor _ _ (by omega), ih _ (hA.encLen _ _ hx) (fun b hb => hbs b (by simp [hb]))]

theorem cbcEncBlocks_dec {A : Aes} (hA : A.Lawful) (key : Bytes) (bs : List Bytes) :
    ∀ iv, iv.length = 16 → (∀ b ∈ bs, b.length = 16) →
    cbcEncBlocks A key iv (cbcDecBlocks A key iv bs) = bs := by
  induction bs with
  | nil => intros; rfl
  | cons b bs ih =>
    intro iv hiv hbs
    have hb : b.length = 16 := hbs b (by simp)
    simp only [cbcEncBlocks, cbcDecBlocks]
    rw [xor_xor _ _ (by rw [hA.decLen _ _ hb]; omega), hA.encDec _ _ hb, ih _ hb (fun b hb => hbs b (by simp [hb]))]

theorem cbcEncBlocks_len {A : Aes} (hA : A.Lawful) (key : Bytes) (bs : List Bytes) :
    ∀ iv, iv.length = 16 → (∀ b ∈ bs, b.length = 16) →
    (∀ b ∈ cbcEncBlocks A key iv bs, b.length = 16) ∧ (cbcEncBlocks A key iv bs).length = bs.length := by
  induction bs with
  | nil => intros; simp [cbcEncBlocks]
  | cons b bs ih =>
    intro iv hiv hbs
    have hb : b.length = 16 := hbs b (by simp)
    have hx : (xor b iv).length = 16 := by rw [xor_length (by omega), hb]
    obtain ⟨i1, i2⟩ := ih _ (hA.encLen key _ hx) (fun b hb => hbs b (by simp [hb]))
    simp only [cbcEncBlocks, List.mem_cons, List.length_cons, i2, and_true]
    rintro c (rfl | hc)
    · exact hA.encLen _ _ hx
    · exact i1 c hc

theorem cbcDecBlocks_len {A : Aes} (hA : A.Lawful) (key : Bytes) (bs : List Bytes) :
    ∀ iv, iv.length = 16 → (∀ b ∈ bs, b.length = 16) →
    (∀ b ∈ cbcDecBlocks A key iv bs, b.length = 16) ∧ (cbcDecBlocks A key iv bs).length = bs.length := by
  induction bs with
  | nil => intros; simp [cbcDecBlocks]
  | cons b bs ih =>
    intro iv hiv hbs
    have hb : b.length = 16 := hbs b (by simp)
    obtain ⟨i1, i2⟩ := ih _ hb (fun b hb => hbs b (by simp [hb]))
    simp only [cbcDecBlocks, List.mem_cons, List.length_cons, i2, and_true]
    rintro c (rfl | hc)
    · rw [xor_length (by rw [hA.decLen _ _ hb]; omega), hA.decLen _ _ hb]
    · exact i1 c hc

/-- Chunks of a multiple of the block size are whole blocks. -/
theorem chunksOf_whole (n : Nat) (hn : 0 < n) (fuel : Nat) (l : Bytes) (hd : n ∣ l.length) :
    ∀ c ∈ chunksOf n fuel l, c.length = n := by
  induction fuel generalizing l with
  | zero => simp [chunksOf]
  | succ fuel ih =>
    simp only [chunksOf]
    split
    · simp
    · rename_i h
      have hne : l ≠ [] := fun e => h (by simp [e])
      have hp : 0 < l.length := List.length_pos_iff.mpr hne
      have hle : n ≤ l.length := Nat.le_of_dvd hp hd
      intro c hc
      rcases List.mem_cons.mp hc with rfl | hc
      · simp; omega
      · refine ih _ ?_ c hc
        rw [List.length_drop]
        exact Nat.dvd_sub hd (Nat.dvd_refl n)

/-- Cutting the concatenation of whole blocks gives the blocks back. -/
theorem chunksOf_flatten_whole (n : Nat) (hn : 0 < n) (bs : List Bytes) :
    ∀ fuel, bs.flatten.length ≤ fuel → (∀ b ∈ bs, b.length = n) → chunksOf n fuel bs.flatten = bs := by
  induction bs with
  | nil => intro fuel _ _; cases fuel <;> simp [chunksOf]
  | cons b bs ih =>
    intro fuel hf hb
    have hbl : b.length = n := hb b (by simp)
    simp only [List.flatten_cons, List.length_append] at hf
    cases fuel with
    | zero => omega
    | succ fuel =>
      have hne : (b ++ bs.flatten).isEmpty = false := by
        cases b with
        | nil => simp at hbl; omega
        | cons => rfl
      simp only [List.flatten_cons, chunksOf, hne, Bool.false_eq_true, if_false]
      rw [List.take_append_of_le_length (by omega), List.take_of_length_le (by omega),
        List.drop_append_of_le_length (by omega), List.drop_of_length_le (by omega), List.nil_append,
        ih fuel (by omega) (fun b hb' => hb b (by simp [hb']))]

theorem flatten_length_const (n : Nat) (bs : List Bytes) (h : ∀ b ∈ bs, b.length = n) :
    bs.flatten.length = n * bs.length := by
  induction bs with
  | nil => simp
  | cons b bs ih =>
    have := ih (fun b hb => h b (by simp [hb]))
    have := h b (by simp)
    simp only [List.flatten_cons, List.length_append, List.length_cons, Nat.mul_add]
    omega

theorem cbcDec_cbcEnc {A : Aes} (hA : A.Lawful) (key iv data : Bytes) (hiv : iv.length = 16) (hd : 16 ∣ data.length) :
    cbcDec A key iv (cbcEnc A key iv data) = data := by
  have hw := chunksOf_whole 16 (by decide) data.length data hd
  have hl := (cbcEncBlocks_len hA key _ iv hiv hw).1
  unfold cbcDec cbcEnc
  rw [chunksOf_flatten_whole 16 (by decide) _ _ (Nat.le_refl _) hl, cbcDecBlocks_enc hA key _ iv hiv hw,
    chunksOf_flatten 16 _ (by decide) data (Nat.le_refl _)]

theorem cbcEnc_cbcDec {A : Aes} (hA : A.Lawful) (key iv data : Bytes) (hiv : iv.length = 16) (hd : 16 ∣ data.length) :
    cbcEnc A key iv (cbcDec A key iv data) = data := by
  have hw := chunksOf_whole 16 (by decide) data.length data hd
  have hl := (cbcDecBlocks_len hA key _ iv hiv hw).1
  unfold cbcDec cbcEnc
  rw [chunksOf_flatten_whole 16 (by decide) _ _ (Nat.le_refl _) hl, cbcEncBlocks_dec hA key _ iv hiv hw,
    chunksOf_flatten 16 _ (by decide) data (Nat.le_refl _)]

theorem cbcEnc_len {A : Aes} (hA : A.Lawful) (key iv data : Bytes) (hiv : iv.length = 16) (hd : 16 ∣ data.length) :
    (cbcEnc A key iv data).length = data.length := by
  have hw := chunksOf_whole 16 (by decide) data.length data hd
  obtain ⟨h1, h2⟩ := cbcEncBlocks_len hA key _ iv hiv hw
  unfold cbcEnc
  rw [flatten_length_const 16 _ h1, h2, ← flatten_length_const 16 _ hw,
    chunksOf_flatten 16 _ (by decide) data (Nat.le_refl _)]

theorem cbcDec_len {A : Aes} (hA : A.Lawful) (key iv data : Bytes) (hiv : iv.length = 16) (hd : 16 ∣ data.length) :
    (cbcDec A key iv data).length = data.length := by
  have hw := chunksOf_whole 16 (by decide) data.length data hd
  obtain ⟨h1, h2⟩ := cbcDecBlocks_len hA key _ iv hiv hw
  unfold cbcDec
  rw [flatten_length_const 16 _ h1, h2, ← flatten_length_const 16 _ hw,
    chunksOf_flatten 16 _ (by decide) data (Nat.le_refl _)]

/-- IV and payload have the sizes of a tunnel data message. -/
def Sized (p : Bytes × Bytes) : Prop := p.1.length = 16 ∧ p.2.length = payloadLen

theorem Sized.dvd {p : Bytes × Bytes} (h : Sized p) : 16 ∣ p.2.length := by
  rw [h.2]; decide

theorem addLayer_sized {A : Aes} (hA : A.Lawful) (k : Keys) {p : Bytes × Bytes} (h : Sized p) :
    Sized (addLayer A k p) := by
  have h1 := hA.encLen k.ivKey _ h.1
  exact ⟨hA.encLen _ _ h1, by simp only [addLayer]; rw [cbcEnc_len hA _ _ _ h1 h.dvd, h.2]⟩

theorem removeLayer_sized {A : Aes} (hA : A.Lawful) (k : Keys) {p : Bytes × Bytes} (h : Sized p) :
    Sized (removeLayer A p k) := by
  have h1 := hA.decLen k.ivKey _ h.1
  exact ⟨hA.decLen _ _ h1, by simp only [removeLayer]; rw [cbcDec_len hA _ _ _ h1 h.dvd, h.2]⟩

theorem add_remove {A : Aes} (hA : A.Lawful) (k : Keys) {p : Bytes × Bytes} (h : Sized p) :
    addLayer A k (removeLayer A p k) = p := by
  have h1 := hA.decLen k.ivKey _ h.1
  simp only [addLayer, removeLayer]
  rw [hA.encDec _ _ h1, hA.encDec _ _ h.1, cbcEnc_cbcDec hA _ _ _ h1 h.dvd]

theorem remove_add {A : Aes} (hA : A.Lawful) (k : Keys) {p : Bytes × Bytes} (h : Sized p) :
    removeLayer A (addLayer A k p) k = p := by
  have h1 := hA.encLen k.ivKey _ h.1
  simp only [addLayer, removeLayer]
  rw [hA.decEnc _ _ h1, hA.decEnc _ _ h.1, cbcDec_cbcEnc hA _ _ _ h1 h.dvd]

theorem removeLayers_cons (A : Aes) (k : Keys) (ks : List Keys) (p : Bytes × Bytes) :
    removeLayers A (k :: ks) p = removeLayer A (removeLayers A ks p) k := by
  simp [removeLayers]

theorem removeLayers_sized {A : Aes} (hA : A.Lawful) (ks : List Keys) {p : Bytes × Bytes} (h : Sized p) :
    Sized (removeLayers A ks p) := by
  induction ks with
  | nil => exact h
  | cons k ks ih => rw [removeLayers_cons]; exact removeLayer_sized hA k ih

/-- Layers added one after the other, first hop first. -/
def addLayers (A : Aes) : List Keys → Bytes × Bytes → Bytes × Bytes
  | [], p => p
  | k :: ks, p => addLayers A ks (addLayer A k p)

theorem addLayers_sized {A : Aes} (hA : A.Lawful) (ks : List Keys) {p : Bytes × Bytes} (h : Sized p) :
    Sized (addLayers A ks p) := by
  induction ks generalizing p with
  | nil => exact h
  | cons k ks ih => exact ih (addLayer_sized hA k h)

theorem addLayers_removeLayers {A : Aes} (hA : A.Lawful) (ks : List Keys) {p : Bytes × Bytes} (h : Sized p) :
    addLayers A ks (removeLayers A ks p) = p := by
  induction ks with
  | nil => rfl
  | cons k ks ih =>
    rw [removeLayers_cons, addLayers, add_remove hA k (removeLayers_sized hA ks h), ih]

theorem removeLayers_addLayers {A : Aes} (hA : A.Lawful) (ks : List Keys) : ∀ {p : Bytes × Bytes}, Sized p →
    removeLayers A ks (addLayers A ks p) = p := by
  induction ks with
  | nil => intros; rfl
  | cons k ks ih =>
    intro p h
    rw [removeLayers_cons, addLayers, ih (addLayer_sized hA k h), remove_add hA k h]

/-! ## Wire format -/

theorem encrypted_parse (tid : Nat) {p : Bytes × Bytes} (h : Sized p) (r : Bytes) (ht : tid < 2 ^ 32) :
    Encrypted.parse (be 4 tid ++ p.1 ++ p.2 ++ r) = some (⟨tid, p.1, p.2⟩, r) := by
  have : tid % 256 ^ 4 = tid := Nat.mod_eq_of_lt (by simpa using ht)
  simp only [Encrypted.parse, List.append_assoc, beU_be, bind_some_pair, takeN_append h.1, takeN_append h.2, this]
  rfl

theorem encrypted_parse' (tid : Nat) {p : Bytes × Bytes} (h : Sized p) :
    Encrypted.parse (be 4 tid ++ p.1 ++ p.2) = some (⟨tid % 256 ^ 4, p.1, p.2⟩, []) := by
  have h0 : be 4 tid ++ p.1 ++ p.2 = be 4 tid ++ (p.1 ++ (p.2 ++ [])) := by simp
  rw [h0]
  simp only [Encrypted.parse, beU_be, bind_some_pair, takeN_append h.1, takeN_append h.2]
  rfl

theorem split_message {m : Bytes} (h : m.length = tunnelDataLen) :
    Sized ((m.drop 4).take 16, m.drop 20) ∧ m = m.take 4 ++ (m.drop 4).take 16 ++ m.drop 20 := by
  have h' : m.length = 1028 := h
  refine ⟨⟨by simp; omega, by simp [payloadLen]; omega⟩, ?_⟩
  have : m.drop 20 = (m.drop 4).drop 16 := by rw [List.drop_drop]
  rw [this, List.append_assoc, List.take_append_drop, List.take_append_drop]

theorem take4_be {m : Bytes} (h : 4 ≤ m.length) : m.take 4 = be 4 (unbe (m.take 4)) := by
  have := be_unbe (m.take 4)
  rw [List.length_take, Nat.min_eq_left h] at this
  exact this.symm

theorem participants_spec {A : Aes} (hA : A.Lawful) (hops : List (Keys × Nat)) :
    ∀ (tid : Nat) (p : Bytes × Bytes), Sized p →
    ∃ tid', participants A hops (be 4 tid ++ p.1 ++ p.2) =
      some (be 4 tid' ++ (addLayers A (hops.map (·.1)) p).1 ++ (addLayers A (hops.map (·.1)) p).2) := by
  induction hops with
  | nil => intro tid p _; exact ⟨tid, rfl⟩
  | cons h hops ih =>
    intro tid p hp
    obtain ⟨k, next⟩ := h
    simp only [participants, participant, encrypted_parse' tid hp, bind_some_pair, bind_some_val, Option.pure_def,
      List.map_cons, addLayers]
    exact ih next _ (addLayer_sized hA k hp)

/-- C46, outbound: a message built by the owner, prepared with the keys of all hops, forwarded by any
number of participants and decrypted by the endpoint comes out exactly as it was built: the endpoint opens the
clear text payload of the built message. -/
theorem C46_outbound_layers_cancel {A : Aes} (hA : A.Lawful) (sha : Sha) (hops : List (Keys × Nat)) (last : Keys)
    (message : Bytes) (hlen : message.length = tunnelDataLen) :
    (participants A hops (ownerSend A (hops.map (·.1) ++ [last]) message)).bind (endpointOpen A sha last) =
      openPayload sha (message.drop 20) ((message.drop 4).take 16) := by
  obtain ⟨hs, _⟩ := split_message hlen
  have h4 : 4 ≤ message.length := by rw [hlen]; decide
  have hr := removeLayers_sized hA (hops.map (·.1) ++ [last]) hs
  simp only [ownerSend]
  rw [take4_be h4]
  obtain ⟨tid', e⟩ := participants_spec hA hops (unbe (message.take 4)) _ hr
  rw [e, Option.bind_some]
  have ha := addLayers_sized hA (hops.map (·.1)) hr
  simp only [endpointOpen, encrypted_parse' tid' ha, bind_some_pair]
  have key : addLayer A last (addLayers A (hops.map (·.1)) (removeLayers A (hops.map (·.1) ++ [last])
      ((message.drop 4).take 16, message.drop 20))) = ((message.drop 4).take 16, message.drop 20) := by
    have h1 : ∀ ks p, addLayer A last (addLayers A ks p) = addLayers A (ks ++ [last]) p := by
      intro ks
      induction ks with
      | nil => intro p; rfl
      | cons k ks ih => intro p; simp only [List.cons_append, addLayers]; exact ih _
    rw [h1, addLayers_removeLayers hA _ hs]
  rw [key]

/-- C46, inbound: a message built and encrypted by the gateway and forwarded by any number of participants is
decrypted by the owner to exactly what the gateway built. -/
theorem C46_inbound_layers_cancel {A : Aes} (hA : A.Lawful) (sha : Sha) (gw : Keys) (hops : List (Keys × Nat))
    (message : Bytes) (hlen : message.length = tunnelDataLen) :
    (participants A hops (gatewaySend A gw message)).bind (ownerOpen A sha (gw :: hops.map (·.1))) =
      openPayload sha (message.drop 20) ((message.drop 4).take 16) := by
  obtain ⟨hs, _⟩ := split_message hlen
  have h4 : 4 ≤ message.length := by rw [hlen]; decide
  have hr := addLayer_sized hA gw hs
  simp only [gatewaySend]
  rw [take4_be h4]
  obtain ⟨tid', e⟩ := participants_spec hA hops (unbe (message.take 4)) _ hr
  rw [e, Option.bind_some]
  have ha := addLayers_sized hA (hops.map (·.1)) hr
  simp only [ownerOpen, encrypted_parse' tid' ha, bind_some_pair]
  have key : removeLayers A (gw :: hops.map (·.1)) (addLayers A (hops.map (·.1)) (addLayer A gw
      ((message.drop 4).take 16, message.drop 20))) = ((message.drop 4).take 16, message.drop 20) :=
    removeLayers_addLayers hA (gw :: hops.map (·.1)) hs
  rw [key]

/-- What leaves each hop has the size of a tunnel data message and differs from the next hop's only by that hop's layer:
sizes reveal nothing about the position in the tunnel. -/
theorem C46_forwarded_size {A : Aes} (hA : A.Lawful) (hops : List (Keys × Nat)) (ks : List Keys)
    (message : Bytes) (hlen : message.length = tunnelDataLen) :
    ∃ out, participants A hops (ownerSend A ks message) = some out ∧ out.length = tunnelDataLen := by
  obtain ⟨hs, _⟩ := split_message hlen
  have h4 : 4 ≤ message.length := by rw [hlen]; decide
  have hr := removeLayers_sized hA ks hs
  simp only [ownerSend]
  rw [take4_be h4]
  obtain ⟨tid', e⟩ := participants_spec hA hops (unbe (message.take 4)) _ hr
  have ha := addLayers_sized hA (hops.map (·.1)) hr
  refine ⟨_, e, ?_⟩
  simp only [List.length_append, be_length, ha.1, ha.2]; rfl

/-- Non-vacuity: a (toy) lawful block cipher that is not the identity. -/
def toyAes : Aes := ⟨fun _ b => b.map (· + 7), fun _ b => b.map (· - 7)⟩

example : toyAes.Lawful := by
  refine ⟨?_, ?_, ?_, ?_⟩ <;> intro k b h <;> simp [toyAes, h]
  · exact List.map_id'' (fun x => by simp) b
  · exact List.map_id'' (fun x => by simp) b

end Emissary.Tunnel
