import Verif.Props.Wire
import Verif.Props.TunnelCrypto
import Verif.Props.TunnelFragment
/-!
# C281: tunnels carry messages with routers of any implementation
-/
namespace Emissary.TunnelPeer
open Emissary Emissary.Tunnel Emissary.Wire Emissary.Stream
open Emissary.Wire.Field

/-! ## Specification: tunnel messages and what the routers of a tunnel do with them -/

/-- Cipher block chaining: each block is combined with the block of ciphertext before it, the first with the IV, and encrypted. -/
def Cbc (A : Aes) (key iv : Bytes) (xs ys : List Bytes) : Prop :=
  ys.length = xs.length ∧ ∀ (i : Nat) (x y : Bytes), xs[i]? = some x → ys[i]? = some y → ∃ before, (iv :: ys)[i]? = some before ∧ y = A.enc key (xor x before)

/-- What every router of a tunnel does with the IV and the data of a message, `p`: the IV is encrypted, the data is encrypted under it with the layer key, and the
IV is encrypted again. -/
def Hop (A : Aes) (k : Keys) (p q : Bytes × Bytes) : Prop :=
  q.1 = A.enc k.ivKey (A.enc k.ivKey p.1) ∧
    ∃ xs ys, p.2 = xs.flatten ∧ q.2 = ys.flatten ∧ (∀ x ∈ xs, x.length = 16) ∧ Cbc A k.layerKey (A.enc k.ivKey p.1) xs ys

/-- One router after the other. -/
inductive Through (A : Aes) : List Keys → Bytes × Bytes → Bytes × Bytes → Prop
  | nil (p : Bytes × Bytes) : Through A [] p p
  | cons {k : Keys} {ks : List Keys} {p q r : Bytes × Bytes} : Hop A k p q → Through A ks q r → Through A (k :: ks) p r

/-- IV and data of a message in the clear that has the parts `bs`: a checksum over parts and IV, padding without zeros, a zero, the parts. -/
def Clear (sha : Sha) (p : Bytes × Bytes) (bs : List Block) : Prop :=
  p.1.length = 16 ∧ p.2.length = 1008 ∧ bs ≠ [] ∧ (∀ b ∈ bs, b.kind.Ok ∧ b.msg.length < 2 ^ 16) ∧ ∃ padding : Bytes, (∀ b ∈ padding, b ≠ 0) ∧
    let parts := layout (bs.flatMap fun b => fragment b.kind b.msg)
    p.2 = layout [raw ((sha (parts ++ p.1)).take 4), raw padding, num 1 0, raw parts]

/-- A message on its way: the tunnel's id at the router that gets it, IV, data. -/
def onWire (tunnel : Nat) (p : Bytes × Bytes) : Bytes := layout [num 4 tunnel, raw p.1, raw p.2]

/-! ## Routers of the specification and of the code -/

theorem onWire_eq (t : Nat) (p : Bytes × Bytes) : onWire t p = be 4 t ++ p.1 ++ p.2 := by
  simp [onWire]

theorem cbc_iff (A : Aes) (key : Bytes) (xs : List Bytes) : ∀ (iv : Bytes) (ys : List Bytes), Cbc A key iv xs ys ↔ ys = cbcEncBlocks A key iv xs := by
  induction xs with
  | nil =>
    intro iv ys
    simp only [Cbc, cbcEncBlocks, List.length_nil, List.length_eq_zero_iff]
    exact ⟨fun h => h.1, fun h => ⟨h, by simp⟩⟩
  | cons x xs ih =>
    intro iv ys
    cases ys with
    | nil => simp [Cbc, cbcEncBlocks]
    | cons y ys =>
      simp only [cbcEncBlocks, List.cons.injEq]
      constructor
      · intro ⟨h1, h2⟩
        obtain ⟨b, hb, hy⟩ := h2 0 x y rfl rfl
        cases hb
        refine ⟨hy, ?_⟩
        rw [← hy]
        exact (ih y ys).mp ⟨by simpa using h1, fun i x' y' hx hy' => h2 (i + 1) x' y' hx hy'⟩
      · intro ⟨hy, hys⟩
        rw [← hy] at hys
        obtain ⟨h1, h2⟩ := (ih y ys).mpr hys
        refine ⟨by simp [h1], fun i x' y' hx hy' => ?_⟩
        cases i with
        | zero => cases hx; cases hy'; exact ⟨iv, rfl, hy⟩
        | succ i => exact h2 i x' y' hx hy'

theorem hop_iff (A : Aes) (k : Keys) {p : Bytes × Bytes} (hp : Sized p) (q : Bytes × Bytes) : Hop A k p q ↔ q = addLayer A k p := by
  constructor
  · rintro ⟨h1, xs, ys, h2, h3, h4, h5⟩
    rw [cbc_iff] at h5
    refine Prod.ext h1 ?_
    simp only [addLayer, cbcEnc]
    rw [h2, chunksOf_flatten_whole 16 (by decide) xs _ (Nat.le_refl _) h4, ← h5]
    exact h3
  · rintro rfl
    refine ⟨rfl, chunksOf 16 p.2.length p.2, _, (chunksOf_flatten 16 _ (by decide) p.2 (Nat.le_refl _)).symm, rfl, chunksOf_whole 16 (by decide) _ _ hp.dvd, ?_⟩
    rw [cbc_iff]

theorem through_iff {A : Aes} (hA : A.Lawful) (ks : List Keys) : ∀ {p : Bytes × Bytes} (_ : Sized p) (q : Bytes × Bytes), Through A ks p q ↔ q = addLayers A ks p := by
  induction ks with
  | nil =>
    intro p _ q
    exact ⟨fun h => by cases h; rfl, fun h => by subst h; exact .nil _⟩
  | cons k ks ih =>
    intro p hp q
    constructor
    · intro h
      cases h with
      | cons h1 h2 =>
        rw [hop_iff A k hp] at h1
        subst h1
        exact (ih (addLayer_sized hA k hp) q).mp h2
    · intro h
      exact .cons ((hop_iff A k hp _).mpr rfl) ((ih (addLayer_sized hA k hp) q).mpr h)

theorem Clear.sized {sha : Sha} {p : Bytes × Bytes} {bs : List Block} (h : Clear sha p bs) : Sized p := ⟨h.1, h.2.1⟩

theorem clear_opens {sha : Sha} (hsha : ShaOk sha) {p : Bytes × Bytes} {bs : List Block} (h : Clear sha p bs) : openPayload sha p.2 p.1 = some bs := by
  obtain ⟨h1, h2, h3, h4, pad, h5, h6⟩ := h
  have := (C274_tunnel_messages sha hsha 0 p.1 pad h1 h5).2 (bs.map fun b => (b.kind, b.msg)) (by simpa using h3) (by
    intro b hb
    obtain ⟨c, hc, rfl⟩ := List.mem_map.mp hb
    exact h4 c hc)
  simp only [List.flatMap_map, List.map_map] at this
  simp only at h6
  generalize layout (bs.flatMap fun b => fragment b.kind b.msg) = x at this h6
  have e : layout (tunnelMessage sha 0 p.1 pad x) = (be 4 0 ++ p.1) ++ p.2 := by
    rw [h6]
    simp [tunnelMessage]
  have e1 : ((be 4 0 ++ p.1) ++ p.2).drop 20 = p.2 := List.drop_left' (by simp [h1])
  have e2 : (((be 4 0 ++ p.1) ++ p.2).drop 4).take 16 = p.1 := by rw [List.append_assoc, List.drop_left' (by simp), List.take_left' h1]
  rw [e, e1, e2] at this
  rw [this]
  congr 1
  rw [show ((fun b : Kind × Bytes => (⟨b.1, b.2⟩ : Block)) ∘ fun b : Block => (b.kind, b.msg)) = id from rfl, List.map_id]

theorem onWire_split (t : Nat) {p : Bytes × Bytes} (hp : Sized p) :
    (onWire t p).take 4 = be 4 t ∧ ((onWire t p).drop 4).take 16 = p.1 ∧ (onWire t p).drop 20 = p.2 := by
  rw [onWire_eq]
  refine ⟨?_, ?_, ?_⟩
  · rw [List.append_assoc, List.take_left' (by simp)]
  · rw [List.append_assoc, List.drop_left' (by simp), List.take_left' hp.1]
  · exact List.drop_left' (by simp [hp.1])

/-- What `build` makes, in terms of the specification. -/
theorem built (sha : Sha) (hsha : ShaOk sha) (tid : Nat) (di : DI) (hdi : di.Ok) (msg random : Bytes) (hrandom : random.length = 1028) (r : Rnd) (hr : r.Ok)
    (hfit : Tunnel.Fits di msg) {i : Nat} {m : Bytes} (h : (build sha tid di msg (paddingBytes random) r)[i]? = some m) :
    ∃ p b, m = onWire tid p ∧ (pieces r.mid di (cut di msg))[i]? = some b ∧ Clear sha p [b] := by
  have hlen := C13_tunnel_data_fixed_size sha hsha tid di hdi msg random hrandom r hr m (List.mem_of_getElem? h)
  obtain ⟨c, ps, pad?, hc, hm, h3, h4, h5, h6⟩ := build_get sha tid di hdi msg _ (paddingBytes_ok hrandom) r i m h
  have hi : i < (cut di msg).length := (List.getElem?_eq_some_iff.mp hc).1
  have hk := label_ok hr.mid hdi (cut_le hfit) hi
  have hc65 : c.length < 65536 := by simp only [tunnelDataLen] at h5; omega
  obtain ⟨pad, g1, _, _, g4⟩ := serialize_layout sha tid (label r.mid di (cut di msg).length i).serialize ps c pad? (r.iv i) (r.off i) h3
  have hf := (C274_fragments _ c [] hk hc65).1
  have hpc : (pieces r.mid di (cut di msg))[i]? = some ⟨label r.mid di (cut di msg).length i, c⟩ := by
    simp only [pieces, List.getElem?_mapIdx, hc, Option.map_some]
  generalize label r.mid di (cut di msg).length i = k at *
  rw [hf] at g4
  have hmm : m = be 4 tid ++ r.iv i ++ ((sha (layout (fragment k c) ++ r.iv i)).take 4 ++ (pad ++ (0 :: layout (fragment k c)))) := by
    rw [hm]; exact g4
  refine ⟨(r.iv i, (sha (layout (fragment k c) ++ r.iv i)).take 4 ++ (pad ++ (0 :: layout (fragment k c)))), ⟨k, c⟩, by rw [onWire_eq]; exact hmm, ?_, hr.iv i, ?_, by simp, ?_,
    pad, g1, ?_⟩
  · exact hpc
  · have := congrArg List.length hmm
    simp only [List.length_append, be_length, hr.iv i, hlen] at this ⊢
    omega
  · intro b hb
    simp only [List.mem_singleton] at hb
    subst hb
    exact ⟨hk, hc65⟩
  · have : be 1 0 = [0] := by decide
    simp [this]

/-! ## C281 -/

/-- C281, the router that owns an outbound tunnel: of a message that fits it makes one tunnel message for each piece of a cut of it, and when routers of any implementation
have taken that message through the tunnel, the endpoint has in the clear a message with that piece. -/
theorem C281_outbound_owner {A : Aes} (hA : A.Lawful) (ks : List Keys) (sha : Sha) (hsha : ShaOk sha) (tid : Nat) (di : DI) (hdi : di.Ok) (msg random : Bytes)
    (hrandom : random.length = 1028) (r : Rnd) (hr : r.Ok) (hfit : Tunnel.Fits di msg) :
    ∃ ps : List Bytes, ps.flatten = msg ∧ (build sha tid di msg (paddingBytes random) r).length = ps.length ∧
      ∀ (i : Nat) (m : Bytes), (build sha tid di msg (paddingBytes random) r)[i]? = some m →
        ∃ p q b, ownerSend A ks m = onWire tid p ∧ Through A ks p q ∧ (∀ q', Through A ks p q' → q' = q) ∧ (pieces r.mid di ps)[i]? = some b ∧ Clear sha q [b] := by
  refine ⟨cut di msg, cut_flatten di msg, build_length .., fun i m h => ?_⟩
  obtain ⟨p, b, hm, hb, hc⟩ := built sha hsha tid di hdi msg random hrandom r hr hfit h
  have hs := removeLayers_sized hA ks hc.sized
  obtain ⟨e1, e2, e3⟩ := onWire_split tid hc.sized
  refine ⟨removeLayers A ks p, p, b, ?_, ?_, ?_, hb, hc⟩
  · rw [hm]
    simp only [ownerSend, e1, e2, e3]
    rw [onWire_eq]
  · rw [through_iff hA ks hs, addLayers_removeLayers hA ks hc.sized]
  · intro q' hq
    rw [through_iff hA ks hs, addLayers_removeLayers hA ks hc.sized] at hq
    exact hq

/-- C281, the router that owns an inbound tunnel: a message of a gateway of any implementation that came through routers of any implementation is read for what it was in
the clear. -/
theorem C281_inbound_owner {A : Aes} (hA : A.Lawful) (ks : List Keys) (sha : Sha) (hsha : ShaOk sha) (t : Nat) (p q : Bytes × Bytes) (bs : List Block) (hc : Clear sha p bs)
    (h : Through A ks p q) : ownerOpen A sha ks (onWire t q) = some bs := by
  rw [through_iff hA ks hc.sized] at h
  subst h
  have hs := addLayers_sized hA ks hc.sized
  rw [onWire_eq]
  simp only [ownerOpen, encrypted_parse' t hs, bind_some_pair]
  rw [removeLayers_addLayers hA ks hc.sized]
  exact clear_opens hsha hc

/-- C281, the endpoint of somebody's outbound tunnel: what its own step uncovers is read, whoever prepared the message. -/
theorem C281_endpoint {A : Aes} (k : Keys) (sha : Sha) (hsha : ShaOk sha) (t : Nat) (p q : Bytes × Bytes) (hp : p.1.length = 16 ∧ p.2.length = 1008) (bs : List Block)
    (h : Hop A k p q) (hc : Clear sha q bs) : endpointOpen A sha k (onWire t p) = some bs := by
  have hs : Sized p := hp
  rw [hop_iff A k hs] at h
  subst h
  rw [onWire_eq]
  simp only [endpointOpen, encrypted_parse' t hs, bind_some_pair]
  exact clear_opens hsha hc

/-- C281, the gateway of somebody's inbound tunnel: of a message that fits it makes one tunnel message for each piece of a cut of it, having done to it the step of the
tunnel's first router. -/
theorem C281_gateway {A : Aes} (k : Keys) (sha : Sha) (hsha : ShaOk sha) (tid : Nat) (di : DI) (hdi : di.Ok) (msg random : Bytes)
    (hrandom : random.length = 1028) (r : Rnd) (hr : r.Ok) (hfit : Tunnel.Fits di msg) :
    ∃ ps : List Bytes, ps.flatten = msg ∧ (build sha tid di msg (paddingBytes random) r).length = ps.length ∧
      ∀ (i : Nat) (m : Bytes), (build sha tid di msg (paddingBytes random) r)[i]? = some m →
        ∃ p q b, (pieces r.mid di ps)[i]? = some b ∧ Clear sha p [b] ∧ Hop A k p q ∧ gatewaySend A k m = onWire tid q := by
  refine ⟨cut di msg, cut_flatten di msg, build_length .., fun i m h => ?_⟩
  obtain ⟨p, b, hm, hb, hc⟩ := built sha hsha tid di hdi msg random hrandom r hr hfit h
  obtain ⟨e1, e2, e3⟩ := onWire_split tid hc.sized
  refine ⟨p, addLayer A k p, b, hb, hc, (hop_iff A k hc.sized _).mpr rfl, ?_⟩
  rw [hm]
  simp only [gatewaySend, e1, e2, e3]
  rw [onWire_eq]

/-- C281, a participant: whatever message of the right size arrives, its step is what the next router gets, under the next router's id. -/
theorem C281_participant {A : Aes} (k : Keys) (t next : Nat) (p : Bytes × Bytes) (hp : p.1.length = 16 ∧ p.2.length = 1008) :
    ∃ q, Hop A k p q ∧ participant A k next (onWire t p) = some (onWire next q) := by
  have hs : Sized p := hp
  refine ⟨addLayer A k p, (hop_iff A k hs _).mpr rfl, ?_⟩
  rw [onWire_eq]
  simp only [participant, encrypted_parse' t hs, bind_some_pair, Option.pure_def]
  rw [onWire_eq]

/-- C281, putting together: the pieces of any cut of a message, from whatever implementation, give the message when the last of them has come, in whatever order and however
often they come and whatever other fragments come between them. -/
theorem C281_put_together (mid : Nat) (di : DI) (M : I2np.Message) (bytes : Bytes) (hM : I2np.Message.parseStandard bytes = some (M, [])) (ps : List Bytes)
    (hps : ps.flatten = bytes) : Reassembled (pieces mid di ps) mid M di :=
  pieces_reassembled mid di M hM ps hps

/-! ## The hypotheses are met -/

/-- Two parts in one message: a whole one and a piece of another. -/
def twoParts : List Block := [⟨.unfragmented .loc, [7, 8]⟩, ⟨.middle 9 3, [1]⟩]

/-- The message that has them. -/
def twoPartsClear : Bytes × Bytes :=
  let iv : Bytes := List.replicate 16 1
  let parts := layout (twoParts.flatMap fun b => fragment b.kind b.msg)
  (iv, layout [raw ((toySha (parts ++ iv)).take 4), raw (List.replicate 990 5), num 1 0, raw parts])

theorem twoParts_clear : Clear toySha twoPartsClear twoParts := by
  refine ⟨by decide +kernel, by decide +kernel, by simp [twoParts], ?_, List.replicate 990 5, ?_, rfl⟩
  · intro b hb
    simp only [twoParts, List.mem_cons, List.not_mem_nil, or_false] at hb
    rcases hb with rfl | rfl
    · exact ⟨trivial, by decide⟩
    · exact ⟨by simp [Kind.Ok], by decide⟩
  · intro b hb
    rw [(List.mem_replicate.mp hb).2]
    decide

theorem toyAes_lawful : toyAes.Lawful := by
  refine ⟨?_, ?_, ?_, ?_⟩ <;> intro k b h <;> simp [toyAes, h]
  · exact List.map_id'' (fun x => by simp) b
  · exact List.map_id'' (fun x => by simp) b

/-- Routers take it through a tunnel, and what arrives is not what was sent. -/
example : ∃ q, Through toyAes [⟨[1], [2]⟩, ⟨[3], [4]⟩] twoPartsClear q ∧ q ≠ twoPartsClear ∧ ownerOpen toyAes toySha [⟨[1], [2]⟩, ⟨[3], [4]⟩] (onWire 5 q) = some twoParts := by
  refine ⟨_, (through_iff toyAes_lawful _ twoParts_clear.sized _).mpr rfl, by decide +kernel, ?_⟩
  exact C281_inbound_owner toyAes_lawful _ toySha (fun b => by simp [toySha]) 5 _ _ _ twoParts_clear ((through_iff toyAes_lawful _ twoParts_clear.sized _).mpr rfl)

end Emissary.TunnelPeer
