import Verif.Model.TunnelBuild
import Verif.Props.Ssu2Handshake
import Verif.Props.BuildRecord
import Verif.Props.Garlic
import Verif.Props.I2np
import Verif.Props.TunnelCrypto
/-!
# Lemmas on tunnel building
-/
namespace Emissary.TBuild
open Emissary Emissary.I2np Emissary.Build Emissary.Prim
open Emissary.Ssu2 (Prims)
open Emissary.Ntcp2 (nonceBytes)
open Emissary.Stream (chunksOf)

section
variable {P : Prims} (hP : P.Lawful)
include hP

theorem ks_length (k : Bytes) (n m : Nat) : (P.ks k (nonceBytes n) m).length = m := hP.crypto.ks k _ m

theorem layer_length (k : Bytes) (n : Nat) (r : Bytes) : (layer P k n r).length = r.length := by
  simp [layer, ks_length hP]

theorem layer_layer (k : Bytes) (n : Nat) (r : Bytes) : layer P k n (layer P k n r) = r := by
  have hl := layer_length hP k n r
  unfold layer at hl ⊢
  rw [hl]
  exact Ssu2.xr_xr r _ (ks_length hP k n _).symm

omit hP in
theorem zip_comm3 (a b c : Bytes) : List.zipWith (· ^^^ ·) (List.zipWith (· ^^^ ·) a b) c
    = List.zipWith (· ^^^ ·) (List.zipWith (· ^^^ ·) a c) b := by
  induction a generalizing b c with
  | nil => simp
  | cons x a ih =>
    cases b with
    | nil => cases c <;> simp
    | cons y b =>
      cases c with
      | nil => simp
      | cons z c =>
        simp only [List.zipWith_cons_cons, List.cons.injEq]
        exact ⟨by rw [UInt8.xor_assoc, UInt8.xor_comm y z, ← UInt8.xor_assoc], ih b c⟩

theorem layer_comm (k k' : Bytes) (n n' : Nat) (r : Bytes) :
    layer P k n (layer P k' n' r) = layer P k' n' (layer P k n r) := by
  have h1 := layer_length hP k n r
  have h2 := layer_length hP k' n' r
  unfold layer at h1 h2 ⊢
  rw [h1, h2]
  exact zip_comm3 _ _ _

/-- Add or remove the layer of one hop on the records from position `i` on. -/
def lay (P : Prims) (key : Bytes) (i : Nat) (rs : List Bytes) : List Bytes := rs.mapIdx fun j r => layer P key (i + j) r

theorem lay_lay (key : Bytes) (i : Nat) (rs : List Bytes) : lay P key i (lay P key i rs) = rs := by
  apply List.ext_getElem?
  intro j
  simp only [lay, List.getElem?_mapIdx, Option.map_map]
  cases rs[j]? <;> simp [layer_layer hP]

omit hP in
theorem lay_length (key : Bytes) (i : Nat) (rs : List Bytes) : (lay P key i rs).length = rs.length := by simp [lay]

omit hP in
theorem lay_append (key : Bytes) (i : Nat) (a b : List Bytes) :
    lay P key i (a ++ b) = lay P key i a ++ lay P key (i + a.length) b := by
  simp only [lay, List.mapIdx_append]
  congr 1
  apply List.mapIdx_eq_mapIdx_iff.mpr
  intro j hj
  congr 1
  omega

theorem lay_sized (key : Bytes) (i : Nat) (rs : List Bytes) (h : ∀ r ∈ rs, r.length = 218) :
    ∀ r ∈ lay P key i rs, r.length = 218 := by
  intro r hr
  simp only [lay, List.mem_mapIdx] at hr
  obtain ⟨j, hj, rfl⟩ := hr
  rw [layer_length hP]
  exact h _ (List.getElem_mem hj)

theorem lay_comm (k k' : Bytes) (i i' : Nat) (rs : List Bytes) :
    lay P k i (lay P k' i' rs) = lay P k' i' (lay P k i rs) := by
  apply List.ext_getElem?
  intro j
  simp only [lay, List.getElem?_mapIdx, Option.map_map]
  cases rs[j]? <;> simp [layer_comm hP k k']

/-! ## Double encryption -/

/-- The records as the creator sends them, from the last hop outwards. -/
def wrap (P : Prims) : Nat → List (Hop × Bytes) → List Bytes → List Bytes
  | _, [], fakes => fakes
  | i, (h, r) :: t, fakes => r :: lay P h.session.keys.reply (i + 1) (wrap P (i + 1) t fakes)

omit hP in
theorem wrap_length (i : Nat) (t : List (Hop × Bytes)) (fakes : List Bytes) :
    (wrap P i t fakes).length = t.length + fakes.length := by
  induction t generalizing i with
  | nil => simp [wrap]
  | cons x t ih => simp only [wrap, List.length_cons, lay_length, ih]; omega

theorem wrap_sized (i : Nat) (t : List (Hop × Bytes)) (fakes : List Bytes) (ht : ∀ x ∈ t, x.2.length = 218)
    (hf : ∀ r ∈ fakes, r.length = 218) : ∀ r ∈ wrap P i t fakes, r.length = 218 := by
  induction t generalizing i with
  | nil => exact hf
  | cons x t ih =>
    intro r hr
    simp only [wrap, List.mem_cons] at hr
    rcases hr with rfl | hr
    · exact ht x (by simp)
    · exact lay_sized hP _ _ _ (ih (i + 1) fun y hy => ht y (List.mem_cons_of_mem _ hy)) r hr

/-- One step of the double encryption. -/
def stepD (P : Prims) (rs : List Bytes) (x : Hop × Nat) : List Bytes :=
  rs.mapIdx fun j r => if x.2 < j then layer P x.1.session.keys.reply j r else r

theorem stepD_comm (rs : List Bytes) (x y : Hop × Nat) : stepD P (stepD P rs x) y = stepD P (stepD P rs y) x := by
  apply List.ext_getElem?
  intro j
  simp only [stepD, List.getElem?_mapIdx, Option.map_map]
  cases rs[j]? with
  | none => rfl
  | some r =>
    simp only [Option.map_some, Function.comp]
    by_cases h1 : x.2 < j <;> by_cases h2 : y.2 < j <;> simp [h1, h2, layer_comm hP y.1.session.keys.reply x.1.session.keys.reply]

theorem foldD_comm (l : List (Hop × Nat)) (rs : List Bytes) (x : Hop × Nat) :
    l.foldl (stepD P) (stepD P rs x) = stepD P (l.foldl (stepD P) rs) x := by
  induction l generalizing rs with
  | nil => rfl
  | cons y l ih => rw [List.foldl_cons, List.foldl_cons, stepD_comm hP rs x y, ih]

omit hP in
theorem stepD_split (pre : List Bytes) (r : Bytes) (suf : List Bytes) (h : Hop) :
    stepD P (pre ++ r :: suf) (h, pre.length) = pre ++ r :: lay P h.session.keys.reply (pre.length + 1) suf := by
  apply List.ext_getElem?
  intro j
  simp only [stepD, List.getElem?_mapIdx]
  rcases Nat.lt_trichotomy j pre.length with hj | hj | hj
  · simp only [List.getElem?_append_left hj]
    have : ¬ pre.length < j := by omega
    cases pre[j]? <;> simp [this]
  · subst hj
    simp
  · simp only [List.getElem?_append_right (Nat.le_of_lt hj), hj, if_true]
    obtain ⟨k, rfl⟩ : ∃ k, j = pre.length + 1 + k := ⟨j - pre.length - 1, by omega⟩
    have e : pre.length + 1 + k - pre.length = k + 1 := by omega
    simp only [e, List.getElem?_cons_succ, lay, List.getElem?_mapIdx]

theorem foldD_wrap (t : List (Hop × Bytes)) (pre fakes : List Bytes) :
    ((t.map (·.1)).zipIdx pre.length).foldl (stepD P) (pre ++ (t.map (·.2) ++ fakes)) = pre ++ wrap P pre.length t fakes := by
  induction t generalizing pre with
  | nil => simp [wrap]
  | cons x t ih =>
    obtain ⟨h, r⟩ := x
    simp only [List.map_cons, List.zipIdx_cons, List.foldl_cons, wrap]
    rw [foldD_comm hP]
    have := ih (pre ++ [r])
    simp only [List.length_append, List.length_singleton, List.append_assoc, List.singleton_append] at this
    simp only [List.cons_append]
    rw [this, stepD_split]

theorem doubleEncrypt_wrap (t : List (Hop × Bytes)) (fakes : List Bytes) :
    doubleEncrypt P (t.map (·.1)) (t.map (·.2) ++ fakes) = wrap P 0 t fakes := by
  have := foldD_wrap hP t [] fakes
  exact (by simpa using this : _ = wrap P 0 t fakes)

/-! ## Keys agree -/

theorem session_agree (sk esk : Bytes) (role : HopRole) :
    (inSession P sk (P.pub esk)).aead = (outSession P (P.pub sk) esk role).aead ∧
    (inSession P sk (P.pub esk)).state = (outSession P (P.pub sk) esk role).state ∧
    Keys.new P (inSession P sk (P.pub esk)).ck role = (outSession P (P.pub sk) esk role).keys := by
  simp only [inSession, outSession, inState, hP.dh sk esk, and_self]

theorem garlic_agree (sk esk : Bytes) : garlicIn P sk (P.pub esk) = garlicOut P (P.pub sk) esk := by
  simp only [garlicIn, garlicOut, inState, hP.dh sk esk]

theorem unseal_seal (k : Bytes) (n : Nat) (ad p : Bytes) : P.unseal k n ad (P.seal k n ad p) = some p :=
  hP.crypto.aead.dec_enc k _ ad p

theorem seal_length (k : Bytes) (n : Nat) (ad p : Bytes) : (P.seal k n ad p).length = p.length + 16 :=
  hP.crypto.aead.len k _ ad p
end

/-! ## Records -/

theorem records_cons (size : Nat) (hs : 0 < size) (c : UInt8) (rs : List Bytes) (h : ∀ r ∈ rs, r.length = size) :
    records size (c :: rs.flatten) = rs := by
  simp only [records, List.drop_succ_cons, List.drop_zero, List.length_cons]
  exact Emissary.Tunnel.chunksOf_flatten_whole size hs rs _ (Nat.le_succ _) h

theorem flatten_length (size : Nat) (rs : List Bytes) (h : ∀ r ∈ rs, r.length = size) :
    rs.flatten.length = rs.length * size := by
  induction rs with
  | nil => simp
  | cons r rs ih =>
    simp only [List.flatten_cons, List.length_append, List.length_cons, ih fun x hx => h x (List.mem_cons_of_mem _ hx),
      h r (by simp)]
    rw [Nat.add_mul]; omega

theorem findLocal_eq (size : Nat) (hs : 0 < size) (hash : Bytes) (c : UInt8) (pre : List Bytes) (r : Bytes) (suf : List Bytes)
    (h : ∀ x ∈ pre ++ r :: suf, x.length = size) (hpre : ∀ x ∈ pre, x.take 16 ≠ hash.take 16) (hr : r.take 16 = hash.take 16) :
    findLocal size hash (c :: (pre ++ r :: suf).flatten) = some pre.length := by
  have hl := flatten_length size _ h
  rw [findLocal, if_pos, records_cons size hs c _ h]
  · rw [List.findIdx?_append]
    have : pre.findIdx? (fun c => c.take 16 == hash.take 16) = none := by
      rw [List.findIdx?_eq_none_iff]
      intro x hx
      simpa using hpre x hx
    simp [this, List.findIdx?_cons, hr]
  · simp only [List.length_cons, hl, List.length_append]
    constructor
    · have : 1 * size ≤ (pre.length + (suf.length + 1)) * size := Nat.mul_le_mul_right _ (by omega)
      omega
    · simp

/-! ## One hop -/

theorem set_append_mid {α : Type} (pre : List α) (r x : α) (suf : List α) :
    (pre ++ r :: suf).set pre.length x = pre ++ x :: suf := by
  simp

theorem encryptRecords_eq (P : Prims) (keys : Keys) (state : Bytes) (pre : List Bytes) (r : Bytes) (suf : List Bytes) :
    encryptRecords P keys state pre.length (pre ++ r :: suf) =
      lay P keys.reply 0 pre ++ P.seal keys.reply pre.length state (r.take 202) :: lay P keys.reply (pre.length + 1) suf := by
  apply List.ext_getElem?
  intro j
  simp only [encryptRecords, List.getElem?_mapIdx]
  rcases Nat.lt_trichotomy j pre.length with hj | hj | hj
  · rw [List.getElem?_append_left hj, List.getElem?_append_left (by rw [lay_length]; exact hj)]
    have : j ≠ pre.length := by omega
    simp only [lay, List.getElem?_mapIdx, Nat.zero_add]
    cases pre[j]? <;> simp [this]
  · subst hj
    rw [List.getElem?_append_right (Nat.le_refl _), List.getElem?_append_right (by rw [lay_length]; exact Nat.le_refl _), lay_length]
    simp
  · rw [List.getElem?_append_right (Nat.le_of_lt hj), List.getElem?_append_right (by rw [lay_length]; omega), lay_length]
    obtain ⟨k, rfl⟩ : ∃ k, j = pre.length + 1 + k := ⟨j - pre.length - 1, by omega⟩
    have e : pre.length + 1 + k - pre.length = k + 1 := by omega
    have : pre.length + 1 + k ≠ pre.length := by omega
    simp only [e, List.getElem?_cons_succ, lay, List.getElem?_mapIdx]
    cases suf[k]? <;> simp [this]

theorem stamp_length (s : UInt8) (r : Bytes) : (stampShort s r).length = r.length := by simp [stampShort]

theorem stamp_status (s : UInt8) (r : Bytes) (h : r.length = 218) : ((stampShort s r).take 202)[201]? = some s := by
  have : 201 < r.length := by omega
  simp [stampShort, List.getElem?_take, this]

/-- The full record of a hop and its parts. -/
theorem sealRecord_parts {P : Prims} (hP : P.Lawful) (p : Params) (rnd : Rnd) (hpad : ∀ i n, (rnd.pad i n).length = n) (x : Plan)
    (hr : x.router.length = 32) (hn : x.nextRouter.length = 32) :
    let s := outSession P x.key (rnd.esk x.pos) x.role
    let c := P.seal s.aead 0 s.state (plainRecord p rnd x)
    (sealRecord P p rnd x).2 = x.router.take 16 ++ P.pub (rnd.esk x.pos) ++ c ∧ (sealRecord P p rnd x).2.length = 218 ∧
    (sealRecord P p rnd x).2.take 16 = x.router.take 16 ∧
    ((sealRecord P p rnd x).2.drop 16).take 32 = P.pub (rnd.esk x.pos) ∧ (sealRecord P p rnd x).2.drop 48 = c := by
  intro s c
  have h0 : (sealRecord P p rnd x).2 = x.router.take 16 ++ P.pub (rnd.esk x.pos) ++ c := rfl
  have h1 : (x.router.take 16).length = 16 := by simp [hr]
  have h2 := hP.pub (rnd.esk x.pos)
  have hplain : (plainRecord p rnd x).length = 154 := C23_short_record_size _ _ (hpad x.pos) hn
  have h3 : c.length = 170 := by show (P.seal _ _ _ _).length = _; rw [seal_length hP, hplain]
  rw [h0]
  refine ⟨rfl, by simp only [List.length_append, h1, h2, h3], ?_, ?_, ?_⟩
  · rw [List.append_assoc, List.take_left' h1]
  · rw [List.append_assoc, List.drop_left' h1, List.take_left' h2]
  · rw [List.drop_left' (by simp only [List.length_append, h1, h2])]

/-- The sealed answer of a hop. -/
def sealedReply (P : Prims) (h : Hop) (i : Nat) (full : Bytes) (accepted : Bool) : Bytes :=
  P.seal h.session.keys.reply i h.session.state ((stampShort (if accepted then 0 else 30) full).take 202)

/-- The message a hop sends on. -/
def forwarded (P : Prims) (now exp : Duration) (x : Plan) (mid : Nat) (keys : Keys) (payload : Bytes) : Option Bytes :=
  match x.role with
  | .inboundGateway | .participant => some (Message.mk .shortTunnelBuild mid exp payload).serializeShort
  | .outboundEndpoint => match keys.garlic with
    | some garlic => endpointReply P now exp garlic x.nextTunnelId mid payload
    | none => none

theorem handleShort_eq {P : Prims} (hP : P.Lawful) (E : Env) (now : Duration) (t : Transit) (p : Params) (rnd : Rnd)
    (hpad : ∀ i n, (rnd.pad i n).length = n) (x : Plan) (hr : x.router.length = 32) (hn : x.nextRouter.length = 32)
    (hid : x.tunnelId < 2 ^ 32) (hnid : x.nextTunnelId < 2 ^ 32) (hmid : p.messageId < 2 ^ 32)
    (hash : t.hash = x.router) (hkey : P.pub t.sk = x.key) (ty : MessageType) (id : Nat) (exp : Duration) (c : UInt8)
    (pre suf : List Bytes) (hsized : ∀ r ∈ pre ++ (sealRecord P p rnd x).2 :: suf, r.length = 218)
    (hclash : ∀ r ∈ pre, r.take 16 ≠ t.hash.take 16) :
    t.handleShort P E now ⟨ty, id, exp, c :: (pre ++ (sealRecord P p rnd x).2 :: suf).flatten⟩ =
      (let hop := (sealRecord P p rnd x).1
       let full := (sealRecord P p rnd x).2
       let a := t.admit true x.tunnelId x.nextTunnelId x.nextRouter x.role hop.session.keys
       let payload := c :: (lay P hop.session.keys.reply 0 pre ++ sealedReply P hop pre.length full a.2 ::
         lay P hop.session.keys.reply (pre.length + 1) suf).flatten
       (forwarded P now exp x p.messageId hop.session.keys payload).map fun m => (a.1, ⟨x.nextRouter, m, a.2⟩)) := by
  obtain ⟨h0, hlen, htake, heph, hct⟩ := sealRecord_parts hP p rnd hpad x hr hn
  have hfind := findLocal_eq 218 (by omega) t.hash c pre _ suf hsized hclash (by rw [htake, hash])
  have hrec := records_cons 218 (by omega) c _ hsized
  obtain ⟨a1, a2, a3⟩ := session_agree hP t.sk (rnd.esk x.pos) x.role
  rw [hkey] at a1 a2 a3
  have hparse : ShortRecord.parse E (plainRecord p rnd x) = some
      ⟨p.messageId, x.nextRouter, x.nextTunnelId, x.role, x.tunnelId⟩ :=
    C23_short_record_roundtrip E _ _ hn hid hnid hmid
  have hget : (pre ++ (sealRecord P p rnd x).2 :: suf)[pre.length]? = some (sealRecord P p rnd x).2 := by simp
  have hkeys : (sealRecord P p rnd x).1.session.keys = (outSession P x.key (rnd.esk x.pos) x.role).keys := rfl
  have hstate : (sealRecord P p rnd x).1.session.state = P.sha ((outSession P x.key (rnd.esk x.pos) x.role).state ++
      P.seal (outSession P x.key (rnd.esk x.pos) x.role).aead 0 (outSession P x.key (rnd.esk x.pos) x.role).state
        (plainRecord p rnd x)) := rfl
  simp only [Transit.handleShort, hfind, hrec, hget, heph, hct, bind_some_val, a1, a2, a3, unseal_seal hP, hparse, hkeys,
    Option.bind_eq_bind, Option.bind_some, List.take_succ_cons, List.take_zero, set_append_mid, encryptRecords_eq]
  rw [← hkeys, ← hstate]
  generalize t.admit true x.tunnelId x.nextTunnelId x.nextRouter x.role (sealRecord P p rnd x).1.session.keys = a
  obtain ⟨t', acc⟩ := a
  simp only [forwarded, sealedReply]
  cases x.role with
  | inboundGateway => rfl
  | participant => rfl
  | outboundEndpoint =>
    cases (sealRecord P p rnd x).1.session.keys.garlic with
    | none => rfl
    | some g => rfl

/-- The creator reads one hop's answer. -/
theorem readReplies_step {P : Prims} (hP : P.Lawful) (h : Hop) (i : Nat) (full : Bytes) (hf : full.length = 218) (accepted : Bool)
    (rest : List (Hop × Nat)) (rs : List Bytes) (hi : rs[i]? = some (sealedReply P h i full accepted)) (report : Report)
    (acc : List Hop) :
    readReplies P ((h, i) :: rest) rs report acc =
      readReplies P rest (rs.mapIdx fun j r => if j = i then r else layer P h.session.keys.reply j r)
        (report.set i (if accepted then .accepted else .rejected 30)) (acc ++ if accepted then [h] else []) := by
  simp only [readReplies, hi, Option.bind_eq_bind, Option.bind_some, sealedReply, unseal_seal hP, stamp_status _ _ hf]
  cases accepted with
  | true => simp
  | false => simp

/-- The records before the hop's are as they were when the request reached it. -/
theorem unlayer_take {P : Prims} (hP : P.Lawful) (key : Bytes) (rs pre : List Bytes) (h : rs.take pre.length = lay P key 0 pre) :
    (rs.mapIdx fun j r => if j = pre.length then r else layer P key j r).take pre.length = pre := by
  apply List.ext_getElem?
  intro j
  by_cases hj : j < pre.length
  · have e : rs[j]? = (lay P key 0 pre)[j]? := by rw [← h, List.getElem?_take, if_pos hj]
    rw [List.getElem?_take, if_pos hj, List.getElem?_mapIdx, e, lay, List.getElem?_mapIdx]
    have : j ≠ pre.length := by omega
    cases pre[j]? with
    | none => rfl
    | some r => simp [this, layer_layer hP]
  · rw [List.getElem?_take, if_neg hj, List.getElem?_eq_none (by omega)]

end Emissary.TBuild
