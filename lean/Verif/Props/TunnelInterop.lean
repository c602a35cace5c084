import Verif.Props.KeyDerivation
import Verif.Props.TunnelBuildIn
import Verif.Props.TunnelDemo
/-!
# C277: tunnels are built through routers of any implementation
-/
namespace Emissary.TBuild
open Emissary Emissary.I2np Emissary.Build Emissary.Prim
open Emissary.Ssu2 (Prims)
open Emissary.Ntcp2 (le)

/-! ## Specification: short tunnel build messages -/

/-- The flags of a record: 0x80 for the gateway of an inbound tunnel, 0x40 for the endpoint of an outbound tunnel. -/
def flagsOf : HopRole → UInt8
  | .inboundGateway => 0x80
  | .outboundEndpoint => 0x40
  | .participant => 0

/-- The text of a record: the id of the tunnel, the id and router it leads to, the flags, two bytes of further flags, the type of layer encryption, the time in
minutes, the number of seconds it is good for, the id for the next message, options and padding. -/
def recordText (id next : Nat) (router : Bytes) (role : HopRole) (reserved : Bytes) (minutes expiry mid : Nat) (options padding : Bytes) : Bytes :=
  be 4 id ++ be 4 next ++ router ++ [flagsOf role] ++ reserved ++ be 4 minutes ++ be 4 expiry ++ be 4 mid ++ options ++ padding

/-- The record of a router: half of its hash, an ephemeral key, and the text sealed with Noise `N` to its static key `B`. -/
def recordFor (P : Prims) (hash B X secret text : Bytes) : Bytes :=
  let (s, k) := Kdf.buildRecord P B X secret
  hash.take 16 ++ X ++ P.seal k 0 s.h text

/-- ChaCha20 with the number of the record as nonce. -/
def cover (P : Prims) (key : Bytes) (j : Nat) (r : Bytes) : Bytes := List.zipWith (· ^^^ ·) r (P.ks key (List.replicate 4 0 ++ le 8 j) r.length)

/-- What a router of any implementation does with the records of a message of which the one with number `i` is for it: it reads the text, seals its answer in the
place of the record and covers the other records. Besides, it has the keys of the tunnel: for replies, layers and IVs, and for an endpoint key and tag of its
garlic message. -/
def anyHop (P : Prims) (sk hash : Bytes) (i : Nat) (answer : Bytes) (rs : List Bytes) :
    Option ((Bytes × Bytes × Bytes × Bytes × Option (Bytes × Bytes)) × List Bytes) := do
  let r ← rs[i]?
  if r.take 16 ≠ hash.take 16 then none
  let X := (r.drop 16).take 32
  let (s, k) := Kdf.buildRecord P (P.pub sk) X (P.dh sk X)
  let text ← P.unseal k 0 s.h (r.drop 48)
  let s := s.mixHash P (r.drop 48)
  let keys := Kdf.hopKeys P s.ck (decide (text[40]? = some 0x40))
  return ((text, keys), rs.mapIdx fun j r => if j = i then P.seal keys.1 i s.h answer else cover P keys.1 j r)

/-- A router of any implementation: its static key, its hash and its answer. -/
structure Peer where
  sk : Bytes
  hash : Bytes
  answer : Bytes

/-- The records pass through the routers. The result is what each of them read, with its keys, and the records in the end. -/
def anyPath (P : Prims) : Nat → List Peer → List Bytes → Option (List (Bytes × Bytes × Bytes × Bytes × Option (Bytes × Bytes)) × List Bytes)
  | _, [], rs => some ([], rs)
  | i, q :: qs, rs => do
    let (text, rs) ← anyHop P q.sk q.hash i q.answer rs
    let (texts, rs) ← anyPath P (i + 1) qs rs
    return (text :: texts, rs)

/-- A router agrees if the last byte of its answer is zero. -/
def Peer.agrees (q : Peer) : Bool := decide (q.answer[201]? = some 0)

/-- The message that brings the records `payload` back: for an inbound tunnel the build message itself; for an outbound one the reply, open or as a clove of
a garlic message with key and tag of the endpoint, among any other blocks. -/
inductive Brings (P : Prims) (garlic : Option (Bytes × Bytes)) : Direction → Message → Bytes → Prop where
  | inbound (id exp payload) : Brings P garlic .inbound ⟨.shortTunnelBuild, id, exp, payload⟩ payload
  | plain (id exp payload) : Brings P garlic .outbound ⟨.outboundTunnelBuildReply, id, exp, payload⟩ payload
  | garlic (id exp key tag plain before after cid cexp how payload) (hg : garlic = some (key, tag))
      (hp : Garlic.parse plain = some (before ++ .clove .outboundTunnelBuildReply cid cexp how payload :: after))
      (hb : ∀ b ∈ before, ∀ i e d p, b ≠ .clove .outboundTunnelBuildReply i e d p) :
      Brings P garlic .outbound ⟨.garlic, id, exp, be 4 (8 + (P.seal key 0 tag plain).length) ++ tag ++ P.seal key 0 tag plain⟩ payload

/-- The role of the `i`-th of `n` routers. -/
def roleAt (n i : Nat) : Direction → HopRole
  | .inbound => if i = 0 then .inboundGateway else .participant
  | .outbound => if i + 1 = n then .outboundEndpoint else .participant

/-- The text for the `i`-th router: the tunnel leads from each router to the next, and from the last one to tunnel `p.gateway` at `p.router`. -/
def textFor (p : Params) (rnd : Rnd) (peers : List Peer) (i : Nat) : Bytes :=
  recordText (rnd.ids i) (if i + 1 = peers.length then p.gateway else rnd.ids (i + 1)) ((peers[i + 1]?.map (·.hash)).getD p.router)
    (roleAt peers.length i p.dir) [0, 0, 0] (asSecs p.now / 60 % 2 ^ 32) (asSecs (p.now + 10000000000) % 2 ^ 32) p.messageId [0, 0] (rnd.pad i 96)

/-- The request with the records `rs` for the first router, whose static key is `sk`: the build message itself for an outbound tunnel, and for an inbound one a
garlic message, sealed with Noise `N` to the static key, with a clove for the router itself. -/
def Requests (P : Prims) (p : Params) (sk : Bytes) (m : Message) (rs : List Bytes) : Prop :=
  match p.dir with
  | .outbound => m = ⟨.shortTunnelBuild, p.messageId, p.now + 10000000000, be 1 rs.length ++ rs.flatten⟩
  | .inbound => ∃ X ct plain exp, m.type = .garlic ∧ m.id = p.messageId ∧ m.payload = be 4 (32 + ct.length) ++ X ++ ct ∧ X.length = 32 ∧
      (let (s, k) := Kdf.buildRecord P (P.pub sk) X (P.dh sk X)
       P.unseal k 0 s.h ct = some plain) ∧
      Garlic.parse plain = some [.dateTime (asSecs p.now % 2 ^ 32), .clove .shortTunnelBuild p.messageId exp .localNode (be 1 rs.length ++ rs.flatten)]

/-- The setting: the creator knows the routers' hashes and keys, there are between one and eight of them, their answers fill their records, and lengths, ids and
clocks are in range. -/
structure Setting (P : Prims) (p : Params) (rnd : Rnd) (peers : List Peer) : Prop where
  hops : p.hops = peers.map fun q => (q.hash, P.pub q.sk)
  some : 0 < peers.length
  few : peers.length ≤ 8
  hash : ∀ q ∈ peers, q.hash.length = 32
  answers : ∀ q ∈ peers, q.answer.length = 202
  router : p.router.length = 32
  mid : p.messageId < 2 ^ 32
  gateway : p.gateway < 2 ^ 32
  ids : ∀ i, rnd.ids i < 2 ^ 32
  pad : ∀ i n, (rnd.pad i n).length = n
  fake : ∀ i, (rnd.fake i).length = 218
  now : p.now + 10000000000 < 2 ^ 32 * 1000000000

/-! ## Lemmas -/

/-- The keys the creator has for a router. -/
def keysOf (h : Hop) : Bytes × Bytes × Bytes × Option (Bytes × Bytes) :=
  (h.session.keys.reply, h.session.keys.layer, h.session.keys.iv, h.session.keys.garlic)

theorem cover_eq (P : Prims) (key : Bytes) (j : Nat) (r : Bytes) : cover P key j r = layer P key j r := rfl

theorem flags_code (r : HopRole) : be 1 r.code = [flagsOf r] := by cases r <;> decide

theorem plainRecord_text (p : Params) (rnd : Rnd) (x : Plan) (hn : x.nextRouter.length = 32) : plainRecord p rnd x =
    recordText x.tunnelId x.nextTunnelId x.nextRouter x.role [0, 0, 0] (asSecs p.now / 60 % 2 ^ 32) (asSecs (p.now + 10000000000) % 2 ^ 32) p.messageId [0, 0] (rnd.pad x.pos 96) := by
  have h2 : be 2 0 = [0, 0] := by decide
  have h1 : be 1 0 = [0] := by decide
  have h3 : (154 + 16 - (be 4 x.tunnelId ++ be 4 x.nextTunnelId ++ x.nextRouter ++ be 1 x.role.code ++ be 2 0 ++ be 1 0 ++ be 4 (asSecs p.now / 60 % 2 ^ 32) ++
    be 4 (asSecs (p.now + 10000000000) % 2 ^ 32) ++ be 4 p.messageId ++ be 2 0).length - 16) = 96 := by simp [hn]
  simp only [plainRecord, ShortParams.serialize, h3, recordText]
  simp only [flags_code, h1, h2, List.append_assoc, List.cons_append, List.nil_append]

theorem text_flag (id next : Nat) (router : Bytes) (role : HopRole) (reserved : Bytes) (a b c : Nat) (o pd : Bytes) (hr : router.length = 32) :
    decide ((recordText id next router role reserved a b c o pd)[40]? = some 0x40) = decide (role = .outboundEndpoint) := by
  have : (recordText id next router role reserved a b c o pd)[40]? = some (flagsOf role) := by
    simp only [recordText, List.append_assoc]
    rw [List.getElem?_append_right (by simp), List.getElem?_append_right (by simp), List.getElem?_append_right (by simp [hr])]
    simp [hr]
  rw [this]
  cases role <;> decide

theorem buildRecord_agree {P : Prims} (hP : P.Lawful) (sk esk : Bytes) (role : HopRole) :
    let s := outSession P (P.pub sk) esk role
    let r := Kdf.buildRecord P (P.pub sk) (P.pub esk) (P.dh sk (P.pub esk))
    r.2 = s.aead ∧ r.1.h = s.state ∧ (Kdf.hopKeys P r.1.ck (decide (role = .outboundEndpoint))) = (s.keys.reply, s.keys.layer, s.keys.iv, s.keys.garlic) := by
  obtain ⟨⟨h1, h2, _, h3⟩, _⟩ := Kdf.C273_tunnels P (P.pub sk) esk role sk (P.pub esk)
  have : P.dh esk (P.pub sk) = P.dh sk (P.pub esk) := (hP.dh sk esk).symm
  rw [this] at h1 h2 h3
  exact ⟨h1.symm, h2.symm, h3.symm⟩

theorem readReplies_any {P : Prims} (hP : P.Lawful) (h : Hop) (i : Nat) (answer : Bytes) (ha : answer.length = 202)
    (rest : List (Hop × Nat)) (rs : List Bytes) (hi : rs[i]? = some (P.seal h.session.keys.reply i h.session.state answer)) (report : Report) (acc : List Hop) :
    ∃ report', readReplies P ((h, i) :: rest) rs report acc =
      readReplies P rest (rs.mapIdx fun j r => if j = i then r else layer P h.session.keys.reply j r) report'
        (acc ++ if answer[201]? = some 0 then [h] else []) := by
  obtain ⟨st, hst⟩ : ∃ st, answer[201]? = some st := ⟨answer[201]'(by omega), List.getElem?_eq_getElem _⟩
  simp only [readReplies, hi, Option.bind_eq_bind, Option.bind_some, unseal_seal hP, hst, Option.some.injEq]
  by_cases h0 : st = 0
  · simp only [h0, if_true]; exact ⟨_, rfl⟩
  · simp only [h0, if_false, List.append_nil]; exact ⟨_, rfl⟩

theorem answer_split (P : Prims) (key v : Bytes) (pre : List Bytes) (r : Bytes) (suf : List Bytes) :
    (pre ++ r :: suf).mapIdx (fun j r => if j = pre.length then v else layer P key j r) = lay P key 0 pre ++ v :: lay P key (pre.length + 1) suf := by
  apply List.ext_getElem?
  intro j
  simp only [List.getElem?_mapIdx]
  rcases Nat.lt_trichotomy j pre.length with hj | hj | hj
  · rw [List.getElem?_append_left hj, List.getElem?_append_left (by rw [lay_length]; exact hj)]
    have : j ≠ pre.length := by omega
    simp only [lay, List.getElem?_mapIdx, Nat.zero_add, if_neg this]
  · subst hj
    simp [lay_length]
  · obtain ⟨k, rfl⟩ : ∃ k, j = pre.length + (k + 1) := ⟨j - pre.length - 1, by omega⟩
    have e : pre.length + (k + 1) - (lay P key 0 pre).length = k + 1 := by rw [lay_length]; omega
    rw [List.getElem?_append_right (by omega), List.getElem?_append_right (by rw [lay_length]; omega), e, Nat.add_sub_cancel_left]
    simp only [List.getElem?_cons_succ, lay, List.getElem?_mapIdx, if_neg (show ¬ pre.length + (k + 1) = pre.length by omega)]
    rw [show pre.length + (k + 1) = pre.length + 1 + k by omega]

/-- One router of any implementation takes its record out and leaves its answer. -/
theorem anyHop_made {P : Prims} (hP : P.Lawful) (p : Params) (rnd : Rnd) (hpad : ∀ i n, (rnd.pad i n).length = n) (x : Plan) (hr : x.router.length = 32)
    (hn : x.nextRouter.length = 32) (q : Peer) (hq : q.hash = x.router ∧ P.pub q.sk = x.key) (pre suf : List Bytes) :
    let h := (sealRecord P p rnd x).1
    anyHop P q.sk q.hash pre.length q.answer (pre ++ (sealRecord P p rnd x).2 :: suf) =
      some ((plainRecord p rnd x, keysOf h), lay P h.session.keys.reply 0 pre ++ P.seal h.session.keys.reply pre.length h.session.state q.answer ::
        lay P h.session.keys.reply (pre.length + 1) suf) := by
  intro h
  obtain ⟨h0, hlen, htake, heph, hct⟩ := sealRecord_parts hP p rnd hpad x hr hn
  have hget : (pre ++ (sealRecord P p rnd x).2 :: suf)[pre.length]? = some (sealRecord P p rnd x).2 := by simp
  have ht := plainRecord_text p rnd x hn
  obtain ⟨a1, a2, a3⟩ := buildRecord_agree hP q.sk (rnd.esk x.pos) x.role
  rw [hq.2] at a1 a2 a3
  simp only [anyHop, hget, Option.bind_eq_bind, Option.bind_some, htake, hq.1, ne_eq, not_true_eq_false, if_false, heph, hct, hq.2, a1, a2, unseal_seal hP, Kdf.Sym.mixHash]
  have hk : decide ((plainRecord p rnd x)[40]? = some 0x40) = decide (x.role = .outboundEndpoint) := by rw [ht]; exact text_flag _ _ _ _ _ _ _ _ _ _ hn
  rw [hk, a3]
  simp only [Option.pure_def, Option.some.injEq, Prod.mk.injEq, true_and, cover_eq]
  exact ⟨rfl, answer_split P _ _ _ _ _⟩

/-- The trip through routers of any implementation. -/
theorem anyTrip {P : Prims} (hP : P.Lawful) (p : Params) (rnd : Rnd) (hpad : ∀ i n, (rnd.pad i n).length = n) (xs : List Plan) (qs : List Peer)
    (hm : qs.map (fun q => (q.hash, P.pub q.sk)) = xs.map fun x => (x.router, x.key)) (hok : ∀ x ∈ xs, x.router.length = 32 ∧ x.nextRouter.length = 32)
    (hans : ∀ q ∈ qs, q.answer.length = 202) (pre fakes : List Bytes) (hpre : ∀ r ∈ pre, r.length = 218) :
    ∃ F, F.length = pre.length + xs.length ∧ (∀ r ∈ F, r.length = 218) ∧
      anyPath P pre.length qs (pre ++ wrap P pre.length (xs.map (sealRecord P p rnd)) fakes) =
        some (xs.map (fun x => (plainRecord p rnd x, keysOf (sealRecord P p rnd x).1)), F ++ fakes) ∧
      ∀ rest rs report acc, rs.take F.length = F → ∃ rs' report', rs'.take pre.length = pre ∧ rs'.length = rs.length ∧
        readReplies P ((((xs.map (sealRecord P p rnd)).map (·.1)).zipIdx pre.length).reverse ++ rest) rs report acc =
          readReplies P rest rs' report' (acc ++ joined ((xs.map (sealRecord P p rnd)).map (·.1)) (qs.map Peer.agrees)) := by
  induction xs generalizing qs pre with
  | nil =>
    have hm := List.map_eq_nil_iff.mp hm
    subst hm
    refine ⟨pre, by simp, hpre, by simp [anyPath, wrap], ?_⟩
    intro rest rs report acc h
    exact ⟨rs, report, h, rfl, by simp [joined]⟩
  | cons x xs ih =>
    rcases qs with _ | ⟨q, qs⟩
    · simp at hm
    simp only [List.map_cons, List.cons.injEq, Prod.mk.injEq] at hm
    obtain ⟨⟨hh, hk⟩, hm⟩ := hm
    obtain ⟨hx1, hx2⟩ := hok x (by simp)
    have hq := hans q (by simp)
    have hhop := anyHop_made hP p rnd hpad x hx1 hx2 q ⟨hh, hk⟩ pre
      (lay P (sealRecord P p rnd x).1.session.keys.reply (pre.length + 1) (wrap P (pre.length + 1) (xs.map (sealRecord P p rnd)) fakes))
    simp only [lay_lay hP] at hhop
    generalize hH : (sealRecord P p rnd x).1 = h at *
    have hsl : (P.seal h.session.keys.reply pre.length h.session.state q.answer).length = 218 := by rw [seal_length hP, hq]
    generalize hpre' : lay P h.session.keys.reply 0 pre ++ [P.seal h.session.keys.reply pre.length h.session.state q.answer] = pre'
    have hpl : pre'.length = pre.length + 1 := by rw [← hpre']; simp [lay_length]
    have hpre's : ∀ r ∈ pre', r.length = 218 := by
      intro r hr
      rw [← hpre'] at hr
      rcases List.mem_append.mp hr with hr | hr
      · exact lay_sized hP _ _ _ hpre r hr
      · rw [List.mem_singleton.mp hr]; exact hsl
    obtain ⟨F, hF1, hF2, hF3, hF4⟩ := ih qs hm (fun y hy => hok y (List.mem_cons_of_mem _ hy)) (fun y hy => hans y (List.mem_cons_of_mem _ hy)) pre' hpre's
    refine ⟨F, by rw [hF1, hpl, List.length_cons]; omega, hF2, ?_, ?_⟩
    · rw [List.map_cons, show sealRecord P p rnd x = (h, (sealRecord P p rnd x).2) by rw [← hH], wrap, anyPath, hhop]
      simp only [Option.bind_eq_bind, Option.bind_some]
      rw [← List.singleton_append, ← List.append_assoc, hpre', ← hpl, hF3]
      simp only [List.map_cons, hH, Option.bind_some, Option.pure_def]
    · intro rest rs report acc hrs
      obtain ⟨rs', rep1, h1, h2, h3⟩ := hF4 ((h, pre.length) :: rest) rs report acc hrs
      have hget : rs'[pre.length]? = some (P.seal h.session.keys.reply pre.length h.session.state q.answer) := by
        have : (rs'.take pre'.length)[pre.length]? = rs'[pre.length]? := by rw [List.getElem?_take, if_pos (by omega)]
        rw [← this, h1, ← hpre']
        simp [lay_length]
      obtain ⟨rep2, h4⟩ := readReplies_any hP h pre.length q.answer hq rest rs' hget rep1
        (acc ++ joined ((xs.map (sealRecord P p rnd)).map (·.1)) (qs.map Peer.agrees))
      refine ⟨_, rep2, unlayer_take hP h.session.keys.reply rs' pre ?_, ?_, ?_⟩
      · have : rs'.take pre.length = (rs'.take pre'.length).take pre.length := by rw [List.take_take]; congr 1; omega
        rw [this, h1, ← hpre', List.take_left' (by rw [lay_length])]
      · simp [h2]
      · simp only [List.map_cons, List.zipIdx_cons, List.reverse_cons, List.append_assoc, List.singleton_append, hH]
        rw [← hpl, h3, h4]
        congr 1
        simp only [joined, List.zip_cons_cons, List.filter_cons, List.append_assoc, Peer.agrees]
        by_cases h0 : q.answer[201]? = some 0 <;> simp [h0]

theorem planList_get (rnd : Rnd) (g : Nat) (ro : Bytes) (i : Nat) (hs : List (Bytes × Bytes)) (roles : List HopRole) (h : roles.length = hs.length) (j : Nat) :
    (planList rnd g ro i hs roles)[j]? = (hs[j]?.bind fun x => roles[j]?.map fun role =>
      ⟨i + j, rnd.ids (i + j), x.1, if j + 1 = hs.length then g else rnd.ids (i + j + 1), (hs[j + 1]?.map (·.1)).getD ro, role, x.2⟩) := by
  induction hs generalizing i roles j with
  | nil => cases roles <;> simp [planList]
  | cons x hs ih =>
    cases roles with
    | nil => simp at h
    | cons r roles =>
      obtain ⟨x1, x2⟩ := x
      cases j with
      | zero =>
        cases hs with
        | nil => simp [planList]
        | cons y hs => simp [planList]
      | succ j =>
        have := ih (i + 1) roles (by simpa using h) j
        simp only [planList, List.getElem?_cons_succ, List.length_cons, Nat.add_right_cancel_iff, this]
        simp only [show i + 1 + j = i + (j + 1) by omega]

theorem roles_get (d : Direction) (n j : Nat) (hj : j < n) : (hopRoles d n)[j]? = some (roleAt n j d) := by
  cases d with
  | inbound =>
    cases j with
    | zero => rfl
    | succ j => simp only [hopRoles, List.getElem?_cons_succ, roleAt]; rw [List.getElem?_replicate, if_pos (by omega)]; simp
  | outbound =>
    simp only [hopRoles, roleAt]
    by_cases h : j + 1 = n
    · rw [List.getElem?_append_right (by simp; omega)]
      simp [h, show j - (n - 1) = 0 by omega]
    · rw [List.getElem?_append_left (by simp; omega), List.getElem?_replicate, if_pos (by omega), if_neg h]

theorem texts_eq (p : Params) (rnd : Rnd) (peers : List Peer) (P : Prims) (hs : Setting P p rnd peers) :
    (plans p rnd).map (plainRecord p rnd) = (List.range peers.length).map (textFor p rnd peers) := by
  have hl : p.hops.length = peers.length := by rw [hs.hops]; simp
  have hrl : (hopRoles p.dir p.hops.length).length = p.hops.length := hopRoles_length _ _ (by rw [hl]; exact hs.some)
  apply List.ext_getElem?
  intro j
  simp only [List.getElem?_map, plans_eq, planList_get rnd p.gateway p.router 0 p.hops _ hrl]
  by_cases hj : j < peers.length
  · have hr := roles_get p.dir p.hops.length j (by omega)
    have hr' : (List.range peers.length)[j]? = some j := by simp [hj]
    have hh : p.hops[j]? = some ((peers[j]).hash, P.pub (peers[j]).sk) := by rw [hs.hops]; simp [hj]
    simp only [hr, hr', hh, Option.bind_some, Option.map_some]
    congr 1
    have hn : (Option.map (fun x : Bytes × Bytes => x.1) p.hops[j + 1]?).getD p.router = ((peers[j + 1]?.map (·.hash)).getD p.router) := by
      rw [hs.hops]; simp only [List.getElem?_map, Option.map_map]; rfl
    rw [plainRecord_text _ _ _ (by
      simp only [hn]
      cases hq : peers[j + 1]? with
      | none => exact hs.router
      | some q => exact hs.hash q (List.mem_of_getElem? hq))]
    simp only [textFor, hn, hl, Nat.zero_add]
  · have h1 : p.hops[j]? = none := List.getElem?_eq_none (by omega)
    have h2 : (List.range peers.length)[j]? = none := List.getElem?_eq_none (by simp; omega)
    rw [h1, h2]; rfl

/-- The garlic message of the request opens with the keys of the specification. -/
theorem garlic_spec {P : Prims} (hP : P.Lawful) (sk e : Bytes) :
    let r := Kdf.buildRecord P (P.pub sk) (P.pub e) (P.dh sk (P.pub e))
    (r.2, r.1.h) = garlicOut P (P.pub sk) e := by
  obtain ⟨a1, a2, _⟩ := buildRecord_agree hP sk e .participant
  intro r
  rw [show r.2 = _ from a1, show r.1.h = _ from a2]
  rfl

theorem request_spec {P : Prims} (hP : P.Lawful) (p : Params) (rnd : Rnd) (sk : Bytes) (rs : List Bytes) (hdir : p.dir = .inbound)
    (hmid : p.messageId < 2 ^ 32) (hnow : p.now + 10000000000 < 2 ^ 32 * 1000000000) (hlen : (fromRecords rs).length ≤ 65000) :
    ∃ m, gatewayRequest P p rnd (P.pub sk) (fromRecords rs) = some m ∧ Requests P p sk m rs := by
  obtain ⟨e1, e2⟩ := exp_secs _ (lt_aux _ hnow)
  obtain ⟨plain, hb, hparse⟩ := Garlic.C22_garlic_message_roundtrip
    [.dateTime (asSecs p.now % 2 ^ 32), .clove .shortTunnelBuild p.messageId (p.now + i2npExpiration) .localNode (fromRecords rs)] (by simp) (by
      intro b hb
      simp only [List.mem_cons, List.not_mem_nil, or_false] at hb
      rcases hb with rfl | rfl
      · exact Nat.mod_lt _ (by decide)
      · exact ⟨hmid, e1, trivial, by omega⟩)
  have hagree := garlic_spec hP sk rnd.garlicEsk
  generalize hkt : garlicOut P (P.pub sk) rnd.garlicEsk = kt at *
  obtain ⟨key, tag⟩ := kt
  refine ⟨_, by simp only [gatewayRequest, hb, Option.bind_eq_bind, Option.bind_some, hkt]; rfl, ?_⟩
  simp only [Requests, hdir]
  refine ⟨P.pub rnd.garlicEsk, P.seal key 0 tag plain, plain, _, trivial, trivial, by rw [Nat.add_comm 32], hP.pub _, ?_, hparse⟩
  simp only [Prod.mk.injEq] at hagree
  rw [hagree.1, hagree.2, unseal_seal hP]

/-- What the creator reads from a message that brings the records back. -/
theorem brings_payload {P : Prims} (hP : P.Lawful) (pending : Pending) (garlic : Option (Bytes × Bytes)) (g : Message) (payload : Bytes)
    (hg : pending.hops.getLast?.bind (·.session.keys.garlic) = garlic) (ht : ∀ k t, garlic = some (k, t) → t.length = 8)
    (hb : Brings P garlic pending.dir g payload) : replyPayload P pending g = some (some payload) := by
  generalize hd : pending.dir = d at hb
  cases hb with
  | inbound id exp _ => simp only [replyPayload, hd]
  | plain id exp _ => simp only [replyPayload, hd]
  | garlic id exp key tag plain before after cid cexp how _ hk hp hb =>
    have h8 := ht key tag hk
    have hdrop : (be 4 (8 + (P.seal key 0 tag plain).length) ++ tag ++ P.seal key 0 tag plain).drop 12 = P.seal key 0 tag plain :=
      List.drop_left' (by simp [be_length, h8])
    have hlen : ¬ (be 4 (8 + (P.seal key 0 tag plain).length) ++ tag ++ P.seal key 0 tag plain).length < 12 := by
      simp only [List.length_append, be_length, h8]; omega
    simp only [replyPayload, hd, hg, hk, if_neg hlen, hdrop, unseal_seal hP, Option.bind_eq_bind, Option.bind_some, hp, List.findSome?_append,
      List.findSome?_cons, Option.some.injEq]
    rw [List.findSome?_eq_none_iff.mpr]
    · rfl
    · intro b hbm
      cases b <;> try rfl
      rename_i ty i e d q
      cases ty <;> first | rfl | exact absurd rfl (hb _ hbm i e d q)

/-- C277, the creator of a tunnel. The first router is sent a request with records of 218 bytes, at most eight and one for every router at least. Routers of any
implementation read from them what the specification wants them to know, and get the keys the creator has for them. From whatever brings the records back the
creator learns whether all of them agreed, whatever else their answers say; only then it has a tunnel, which goes through these routers. -/
theorem C277_creator {P : Prims} (hP : P.Lawful) (hD : Digests P) (p : Params) (rnd : Rnd) (q : Peer) (qs : List Peer) (hs : Setting P p rnd (q :: qs)) :
    ∃ pending m rs final keys, create P p rnd = some (.ok (pending, q.hash, m)) ∧ (q :: qs).length ≤ rs.length ∧ rs.length ≤ 8 ∧
      (∀ r ∈ rs, r.length = 218) ∧ Requests P p q.sk m rs ∧
      anyPath P 0 (q :: qs) rs = some (((List.range (q :: qs).length).map (textFor p rnd (q :: qs))).zip keys, final) ∧
      pending.hops.map (fun h => (h.router, h.tunnelId)) = (q :: qs).mapIdx (fun i q => (q.hash, rnd.ids i)) ∧
      pending.hops.map keysOf = keys ∧
      ∀ c g, Brings P (keys.getLast?.bind (·.2.2.2)) p.dir g (c :: final.flatten) →
        if (q :: qs).all Peer.agrees then tryBuild P pending g = .tunnel pending.hops else ∃ report, tryBuild P pending g = .failed report := by
  have hl : p.hops.length = (q :: qs).length := by rw [hs.hops]; simp
  have hfew := hs.few
  obtain ⟨hr1, hr2⟩ := numRecords_range p.hops.length rnd.extra (by omega)
  have hrl : (hopRoles p.dir p.hops.length).length = p.hops.length := hopRoles_length _ _ (by rw [hl]; exact hs.some)
  have htexts := texts_eq p rnd (q :: qs) P hs
  have hpl := plans_eq p rnd
  have hxl : (plans p rnd).length = p.hops.length := by rw [hpl]; exact planList_length _ _ _ _ _ _ hrl
  have hkeys : (q :: qs).map (fun q => (q.hash, P.pub q.sk)) = (plans p rnd).map fun x => (x.router, x.key) := by
    rw [hpl, planList_keys _ _ _ _ _ _ hrl, hs.hops]
  have hids : (plans p rnd).map (·.tunnelId) = (List.range (q :: qs).length).map rnd.ids := by
    rw [hpl, planList_ids _ _ _ _ _ _ hrl, hl, List.range_eq_range']
  have hok : ∀ x ∈ plans p rnd, x.Ok := by
    rw [hpl]
    refine planList_ok _ _ _ hs.gateway hs.ids hs.router _ _ ?_ _
    intro x hx
    rw [hs.hops] at hx
    obtain ⟨n, hn, rfl⟩ := List.mem_map.mp hx
    exact hs.hash n hn
  have hlastrole : ∀ x, (plans p rnd).getLast? = some x → p.dir = .outbound → x.role = .outboundEndpoint := by
    intro x hx hd
    have : ((plans p rnd).map (·.role)).getLast? = some x.role := by rw [List.getLast?_map, hx]; rfl
    rw [hpl, planList_roles _ _ _ _ _ _ hrl, hd] at this
    simp only [hopRoles, List.getLast?_append, List.getLast?_singleton, Option.some_or, Option.some.injEq] at this
    exact this.symm
  clear hpl
  generalize hxs : plans p rnd = xs at *
  generalize hfk : (List.range (numRecords p.hops.length rnd.extra - p.hops.length)).map rnd.fake = fakes at *
  have hfl : fakes.length = numRecords p.hops.length rnd.extra - p.hops.length := by rw [← hfk]; simp
  have hsized : ∀ r ∈ fakes, r.length = 218 := by
    rw [← hfk]
    intro r hr
    obtain ⟨i, _, rfl⟩ := List.mem_map.mp hr
    exact hs.fake i
  have hmade : ∀ y ∈ xs.map (sealRecord P p rnd), y.2.length = 218 := by
    intro y hy
    obtain ⟨z, hz, rfl⟩ := List.mem_map.mp hy
    exact (sealRecord_parts hP p rnd hs.pad z (hok z hz).router (hok z hz).next).2.1
  obtain ⟨F, f1, f2, f3, f4⟩ := anyTrip hP p rnd hs.pad xs (q :: qs) hkeys (fun x hx => ⟨(hok x hx).router, (hok x hx).next⟩) hs.answers [] fakes (by simp)
  simp only [List.length_nil, Nat.zero_add, List.nil_append] at f1 f3 f4
  have hws := wrap_sized hP 0 (xs.map (sealRecord P p rnd)) fakes hmade hsized
  have hwl : (wrap P 0 (xs.map (sealRecord P p rnd)) fakes).length = numRecords p.hops.length rnd.extra := by
    rw [wrap_length, List.length_map]; omega
  have hcreate : create P p rnd = match p.dir with
      | .outbound => some (.ok (⟨p.dir, (xs.map (sealRecord P p rnd)).map (·.1), numRecords p.hops.length rnd.extra, p.tunnelId⟩, q.hash,
          ⟨.shortTunnelBuild, p.messageId, p.now + 10000000000, fromRecords (wrap P 0 (xs.map (sealRecord P p rnd)) fakes)⟩))
      | .inbound => (gatewayRequest P p rnd (P.pub q.sk) (fromRecords (wrap P 0 (xs.map (sealRecord P p rnd)) fakes))).map fun m =>
          .ok (⟨p.dir, (xs.map (sealRecord P p rnd)).map (·.1), numRecords p.hops.length rnd.extra, p.tunnelId⟩, q.hash, m) := by
    unfold create
    have hne : ¬ p.hops.length > 8 := by omega
    simp only [if_neg hne]
    have hcons : p.hops = (q.hash, P.pub q.sk) :: qs.map fun q => (q.hash, P.pub q.sk) := by rw [hs.hops]; rfl
    split
    · rename_i h; rw [h] at hcons; cases hcons
    · rename_i h
      rw [hcons] at h
      simp only [List.cons.injEq, Prod.mk.injEq] at h
      obtain ⟨⟨rfl, rfl⟩, _⟩ := h
      rw [hxs, hfk, doubleEncrypt_wrap hP]
      cases p.dir <;> rfl
  generalize hrs : wrap P 0 (xs.map (sealRecord P p rnd)) fakes = rs at *
  generalize hpend : (⟨p.dir, (xs.map (sealRecord P p rnd)).map (·.1), numRecords p.hops.length rnd.extra, p.tunnelId⟩ : Pending) = pending at *
  have hph : pending.hops = (xs.map (sealRecord P p rnd)).map (·.1) := by rw [← hpend]
  have hpd : pending.dir = p.dir := by rw [← hpend]
  have hpn : pending.numRecords = rs.length := by rw [← hpend, hwl]
  have hm : ∃ m, create P p rnd = some (.ok (pending, q.hash, m)) ∧ Requests P p q.sk m rs := by
    cases hd : p.dir with
    | outbound =>
      rw [hcreate, hd]
      exact ⟨_, rfl, by simp only [Requests, hd]; rfl⟩
    | inbound =>
      obtain ⟨m, m1, m2⟩ := request_spec hP p rnd q.sk rs hd hs.mid hs.now (by
        simp only [fromRecords, List.length_append, be_length, flatten_length 218 rs hws]; omega)
      rw [hcreate, hd]
      exact ⟨m, by simp only [m1, Option.map_some], m2⟩
  obtain ⟨m, m1, m2⟩ := hm
  have hxq : xs.length = (q :: qs).length := by omega
  refine ⟨pending, m, rs, F ++ fakes, pending.hops.map keysOf, m1, by omega, by omega, hws, m2, ?_, ?_, rfl, ?_⟩
  · rw [f3, ← htexts, hph]
    congr 2
    rw [List.map_map, List.map_map, List.zip_map']
    rfl
  · rw [hph]
    have e1 : ((xs.map (sealRecord P p rnd)).map (·.1)).map (fun h => (h.router, h.tunnelId)) = (xs.map (fun x => (x.router, x.key))).zipWith
        (fun a b => (a.1, b)) (xs.map (·.tunnelId)) := by
      rw [List.zipWith_map, List.zipWith_self, List.map_map, List.map_map]; rfl
    rw [e1, ← hkeys, hids]
    apply List.ext_getElem?
    intro j
    rw [List.getElem?_zipWith, List.getElem?_mapIdx, List.getElem?_map, List.getElem?_map]
    by_cases hj : j < (q :: qs).length
    · rw [List.getElem?_range hj, List.getElem?_eq_getElem hj]; rfl
    · rw [List.getElem?_eq_none (by omega : (q :: qs).length ≤ j)]; rfl
  · intro c g hb
    have hlast : (pending.hops.map keysOf).getLast?.bind (·.2.2.2) = pending.hops.getLast?.bind (·.session.keys.garlic) := by
      rw [List.getLast?_map]
      cases pending.hops.getLast? <;> rfl
    rw [hlast, ← hpd] at hb
    have htag : ∀ k t, (pending.hops.getLast?.bind (·.session.keys.garlic)) = some (k, t) → t.length = 8 := by
      intro k t hkt
      rw [hph, List.getLast?_map, List.getLast?_map] at hkt
      cases hx : xs.getLast? with
      | none => rw [hx] at hkt; cases hkt
      | some x =>
        rw [hx] at hkt
        have hkt : (outSession P x.key (rnd.esk x.pos) x.role).keys.garlic = some (k, t) := hkt
        simp only [outSession, Keys.new] at hkt
        cases hro : x.role <;> rw [hro] at hkt <;> simp only [Option.some.injEq, Prod.mk.injEq, reduceCtorEq] at hkt
        rw [← hkt.2, List.length_take]
        exact Nat.min_eq_left (hD.hmac _ _)
    have hpay := brings_payload hP pending _ g _ rfl htag hb
    have hfs : ∀ r ∈ F ++ fakes, r.length = 218 := by
      intro r hr
      rcases List.mem_append.mp hr with h | h
      · exact f2 r h
      · exact hsized r h
    have hlen : (c :: (F ++ fakes).flatten).length = pending.numRecords * 218 + 1 := by
      rw [List.length_cons, flatten_length 218 _ hfs, hpn, List.length_append, f1]
      congr 2
      omega
    obtain ⟨rs', report', _, _, h3⟩ := f4 [] (F ++ fakes) (pending.hops.reverse.map fun h => (h.router, none)) [] (by rw [List.take_left' rfl])
    rw [List.append_nil, List.nil_append, readReplies, ← hph] at h3
    have hjl : pending.hops.length = ((q :: qs).map Peer.agrees).length := by rw [hph]; simp only [List.length_map]; exact hxq
    obtain ⟨j1, j2⟩ := joined_all pending.hops ((q :: qs).map Peer.agrees) hjl
    rw [List.all_map] at j1 j2
    have hall : ((q :: qs).all ((fun x => x) ∘ Peer.agrees)) = (q :: qs).all Peer.agrees := rfl
    rw [hall] at j1 j2
    unfold tryBuild
    simp only [hpay, hlen, ne_eq, not_true, if_false, records_cons 218 (by omega) c _ hfs, h3]
    cases ha : (q :: qs).all Peer.agrees with
    | true => rw [j1 ha]; simp
    | false => rw [if_pos (j2 ha)]; simp

/-! ## A router that is asked to take part -/

theorem endpointReply_brings {P : Prims} (hP : P.Lawful) (hD : Digests P) (now : Duration) (s : Nat) (key tag : Bytes) (htag : tag.length = 8)
    (nextId mid : Nat) (payload : Bytes) (hs : s < 2 ^ 32) (hnow : now + i2npExpiration < 2 ^ 32 * 1000000000)
    (hmid : mid < 2 ^ 32) (hlen : payload.length ≤ 65000) :
    ∃ out inner g, endpointReply P now (fromSecs s) (key, tag) nextId mid payload = some out ∧
      Message.parseShort out = some (⟨.tunnelGateway, mid, fromSecs s, be 4 nextId ++ be 2 inner.length ++ inner⟩, []) ∧
      Message.parseStandard inner = some (g, []) ∧ g.id = mid ∧ Brings P (some (key, tag)) .outbound g payload := by
  obtain ⟨plain, hb, hparse⟩ := Garlic.C22_garlic_message_roundtrip
    [.clove .outboundTunnelBuildReply mid (now + i2npExpiration) .localNode payload, .dateTime (asSecs now % 2 ^ 32)] (by simp) (by
      intro b hb
      simp only [List.mem_cons, List.not_mem_nil, or_false] at hb
      rcases hb with rfl | rfl
      · exact ⟨hmid, Nat.div_lt_of_lt_mul (by rw [Nat.mul_comm]; exact hnow), trivial, by omega⟩
      · exact Nat.mod_lt _ (by decide))
  have hpl : plain.length = payload.length + 20 := by
    have e : plain = _ := (Option.some.inj hb).symm
    rw [e]
    simp [Garlic.Delivery.serialize, be_length]
    omega
  have hsl : (P.seal key 0 tag plain).length = payload.length + 36 := by rw [seal_length hP, hpl]
  generalize hout : be 4 ((P.seal key 0 tag plain).length + 8) ++ tag ++ P.seal key 0 tag plain = out at *
  have hol : out.length = payload.length + 48 := by
    rw [← hout]; simp only [List.length_append, be_length, htag, hsl]; omega
  generalize hinner : (Message.mk .garlic mid (now + i2npExpiration) out).serializeStandard P.sha = inner at *
  have hil : inner.length ≤ payload.length + 48 + 16 := by
    rw [← hinner]
    simp only [Message.serializeStandard, List.length_append, be_length, List.length_take, hol]
    omega
  have hstd := C17_standard_header_roundtrip P.sha (fun b => by have := hD.sha b; omega)
    ⟨.garlic, mid, now + i2npExpiration, out⟩ [] hmid
    (Nat.div_lt_of_lt_mul (Nat.lt_of_lt_of_le hnow (show (2 ^ 32 * 1000000000 : Nat) ≤ 1000000 * 2 ^ 64 by omega))) (by intro h; simp only at h; rw [h] at hol; simp at hol)
    (by simp only; omega)
  rw [List.append_nil, hinner] at hstd
  have hgl : (TunnelGateway.mk nextId inner).serialize.length = 6 + inner.length := by
    simp [TunnelGateway.serialize, be_length]; omega
  have hshort := parseShort_own .tunnelGateway mid s (TunnelGateway.mk nextId inner).serialize hmid hs
    (by intro h; rw [h] at hgl; simp at hgl; omega) (by omega)
  refine ⟨_, inner, _, ?_, hshort, hstd, rfl, ?_⟩
  · simp only [endpointReply, hb, Option.bind_eq_bind, Option.bind_some, hout, hinner]
    rfl
  · rw [← hout, Nat.add_comm _ 8]
    exact .garlic _ _ key tag plain [] [.dateTime (asSecs now % 2 ^ 32)] _ _ _ payload rfl hparse (by simp)

theorem parse_text (E : Env) (id next : Nat) (router : Bytes) (role : HopRole) (reserved : Bytes) (minutes expiry mid : Nat) (opts : List Mapping) (padding : Bytes)
    (hr : router.length = 32) (hres : reserved.length = 3) (hid : id < 2 ^ 32) (hnext : next < 2 ^ 32) (hmid : mid < 2 ^ 32)
    (ho : ∀ m ∈ opts, m.Ok E) (hs : (opts.map Mapping.serializedLen).sum < 65536) :
    ShortRecord.parse E (recordText id next router role reserved minutes expiry mid (Mapping.serializeMulti opts) padding) = some ⟨mid, router, next, role, id⟩ := by
  have e1 : id % 256 ^ 4 = id := Nat.mod_eq_of_lt (by omega)
  have e2 : next % 256 ^ 4 = next := Nat.mod_eq_of_lt (by omega)
  have e3 : mid % 256 ^ 4 = mid := Nat.mod_eq_of_lt (by omega)
  obtain ⟨a, b, c, rfl⟩ : ∃ a b c, reserved = [a, b, c] := by
    match reserved, hres with
    | [a, b, c], _ => exact ⟨a, b, c, rfl⟩
  have hc : ∀ r : Bytes, beU 1 (c :: r) = some (c.toNat, r) := by
    intro r
    have := beU_be 1 c.toNat r
    have e : be 1 c.toNat = [c] := by simp [be]
    rw [e, Nat.mod_eq_of_lt (by have := c.toNat_lt; omega)] at this
    exact this
  have hab : ∀ r : Bytes, takeN 2 (a :: b :: r) = some ([a, b], r) := fun r => takeN_append (l := [a, b]) rfl r
  simp only [ShortRecord.parse, ShortRecord.parseFrame, recordText, ← flags_code, List.append_assoc, beU_be, List.cons_append, List.nil_append, hab, hc,
    takeN_append hr, Mapping.parseMulti_serialize opts ho hs, takeN_all, (role_code role).1, (role_code role).2, bind_some_val, e1, e2, e3]
  rfl

/-- C277, a router that is asked. The record for it was made by any implementation, with any options and padding, and stands among any others. The router reads
it, decides as `willing` says, answers as the specification wants it, and passes the records on under the id it was given: to the router it was given, or as the
endpoint to the gateway it was given. If it takes part it has exactly one more tunnel, with the ids of the record and the keys of the specification. -/
theorem C277_hop {P : Prims} (hP : P.Lawful) (hD : Digests P) (E : Env) (now : Duration) (t : Transit) (hash : t.hash.length = 32) (esk : Bytes)
    (id next : Nat) (router : Bytes) (role : HopRole) (reserved : Bytes) (minutes expiry mid : Nat) (opts : List Mapping) (padding : Bytes)
    (hr : router.length = 32) (hres : reserved.length = 3) (hid : id < 2 ^ 32) (hnext : next < 2 ^ 32) (hmid : mid < 2 ^ 32)
    (ho : ∀ m ∈ opts, m.Ok E) (hs : (opts.map Mapping.serializedLen).sum < 65536) (text : Bytes)
    (htext : text = recordText id next router role reserved minutes expiry mid (Mapping.serializeMulti opts) padding) (hlen : text.length = 154)
    (pre suf rs : List Bytes) (hrs : rs = pre ++ recordFor P t.hash (P.pub t.sk) (P.pub esk) (P.dh esk (P.pub t.sk)) text :: suf)
    (hpre : ∀ r ∈ pre, r.length = 218) (hsuf : ∀ r ∈ suf, r.length = 218) (hmany : rs.length ≤ 255) (hclash : ∀ r ∈ pre, r.take 16 ≠ t.hash.take 16)
    (ty : MessageType) (mid0 : Nat) (s : Nat) (hsecs : s < 2 ^ 32) (hnow : now + i2npExpiration < 2 ^ 32 * 1000000000) (c : UInt8) :
    ∃ t' reply answer keys rs', t.handleShort P E now ⟨ty, mid0, fromSecs s, c :: rs.flatten⟩ = some (t', reply) ∧
      anyHop P t.sk t.hash pre.length answer rs = some ((text, keys), rs') ∧ answer.length = 202 ∧
      answer[201]? = some (if willing t id then 0 else 30) ∧ reply.feedback = willing t id ∧ reply.router = router ∧
      (if willing t id then ∃ rx, t'.tunnels = t.tunnels ++ [⟨id, next, router, role, ⟨keys.2.2.2, keys.2.2.1, keys.2.1, keys.1⟩, rx⟩] ∧
          t'.table.tunnels id = some rx
        else t' = t) ∧
      (if role = .outboundEndpoint then ∃ inner g,
          Message.parseShort reply.message = some (⟨.tunnelGateway, mid, fromSecs s, be 4 next ++ be 2 inner.length ++ inner⟩, []) ∧
          Message.parseStandard inner = some (g, []) ∧ g.id = mid ∧ keys.2.2.2.isSome ∧ Brings P keys.2.2.2 .outbound g (c :: rs'.flatten)
        else Message.parseShort reply.message = some (⟨.shortTunnelBuild, mid, fromSecs s, c :: rs'.flatten⟩, [])) := by
  have hparse := parse_text E id next router role reserved minutes expiry mid opts padding hr hres hid hnext hmid ho hs
  have hflag := text_flag id next router role reserved minutes expiry mid (Mapping.serializeMulti opts) padding hr
  rw [← htext] at hparse hflag
  clear htext
  obtain ⟨a1, a2, a3⟩ := buildRecord_agree hP t.sk esk role
  obtain ⟨b1, b2, b3⟩ := session_agree hP t.sk esk role
  rw [← hP.dh] at hrs
  generalize hrec : recordFor P t.hash (P.pub t.sk) (P.pub esk) (P.dh t.sk (P.pub esk)) text = rec at *
  simp only [recordFor, a1, a2] at hrec
  have h16 : (t.hash.take 16).length = 16 := by simp [hash]
  have h32 := hP.pub esk
  have hct : rec.drop 48 = P.seal (outSession P (P.pub t.sk) esk role).aead 0 (outSession P (P.pub t.sk) esk role).state text := by
    rw [← hrec, List.drop_left' (by simp only [List.length_append, h16, h32])]
  have htake : rec.take 16 = t.hash.take 16 := by rw [← hrec, List.append_assoc, List.take_left' h16]
  have heph : (rec.drop 16).take 32 = P.pub esk := by rw [← hrec, List.append_assoc, List.drop_left' h16, List.take_left' h32]
  have hrl : rec.length = 218 := by rw [← hrec]; simp only [List.length_append, h16, h32, seal_length hP, hlen]
  have hsized : ∀ r ∈ rs, r.length = 218 := by
    intro r hr
    rw [hrs] at hr
    rcases List.mem_append.mp hr with h | h
    · exact hpre r h
    · rcases List.mem_cons.mp h with h | h
      · rw [h]; exact hrl
      · exact hsuf r h
  have hfind := findLocal_eq 218 (by omega) t.hash c pre rec suf (by rw [← hrs]; exact hsized) hclash htake
  rw [← hrs] at hfind
  have hrecs := records_cons 218 (by omega) c _ hsized
  have hget : rs[pre.length]? = some rec := by rw [hrs]; simp
  obtain ⟨w1, w2, w3⟩ := admit_willing t id next router role (outSession P (P.pub t.sk) esk role).keys
  generalize hadm : t.admit true id next router role (outSession P (P.pub t.sk) esk role).keys = adm at *
  obtain ⟨t', acc⟩ := adm
  simp only at w1 w2 w3
  have hgar : role = .outboundEndpoint → ∃ k tag, (outSession P (P.pub t.sk) esk role).keys.garlic = some (k, tag) ∧ tag.length = 8 := by
    intro h; subst h
    exact garlicTag P hD _
  generalize hS : outSession P (P.pub t.sk) esk role = S at *
  have hany : anyHop P t.sk t.hash pre.length ((stampShort (if acc then 0 else 30) rec).take 202) rs =
      some ((text, S.keys.reply, S.keys.layer, S.keys.iv, S.keys.garlic), encryptRecords P S.keys (P.sha (S.state ++ rec.drop 48)) pre.length
        (rs.set pre.length (stampShort (if acc then 0 else 30) rec))) := by
    simp only [anyHop, hget, Option.bind_eq_bind, Option.bind_some, htake, ne_eq, not_true_eq_false, if_false, heph, a1, a2, hct, unseal_seal hP,
      Kdf.Sym.mixHash, hflag, a3, Option.pure_def, Option.some.injEq, Prod.mk.injEq, true_and, cover_eq]
    rw [hrs, set_append_mid, encryptRecords_eq]
    exact answer_split P _ _ _ _ _
  generalize hrs' : encryptRecords P S.keys (P.sha (S.state ++ rec.drop 48)) pre.length (rs.set pre.length (stampShort (if acc then 0 else 30) rec)) = rs' at *
  have hl' : (c :: rs'.flatten).length ≤ 65000 := by
    have h1 : rs'.length = rs.length := by rw [← hrs']; simp [encryptRecords]
    have h2 : ∀ r ∈ rs', r.length = 218 := by
      rw [← hrs', hrs, set_append_mid, encryptRecords_eq]
      intro r hr
      rcases List.mem_append.mp hr with h | h
      · exact lay_sized hP _ _ _ hpre r h
      · rcases List.mem_cons.mp h with h | h
        · rw [h, seal_length hP, List.length_take, stamp_length, hrl]; rfl
        · exact lay_sized hP _ _ _ hsuf r h
    rw [List.length_cons, flatten_length 218 _ h2, h1]
    omega
  have hans : ((stampShort (if acc then 0 else 30) rec).take 202).length = 202 := by rw [List.length_take, stamp_length, hrl]; rfl
  have hstat := stamp_status (if acc then 0 else 30) rec hrl
  have hmsg : ∃ out, (match role with
      | .inboundGateway | .participant => some (Message.mk .shortTunnelBuild mid (fromSecs s) (c :: rs'.flatten)).serializeShort
      | .outboundEndpoint => match S.keys.garlic with
        | some garlic => endpointReply P now (fromSecs s) garlic next mid (c :: rs'.flatten)
        | none => none) = some out ∧
      (if role = .outboundEndpoint then ∃ inner g,
          Message.parseShort out = some (⟨.tunnelGateway, mid, fromSecs s, be 4 next ++ be 2 inner.length ++ inner⟩, []) ∧
          Message.parseStandard inner = some (g, []) ∧ g.id = mid ∧ S.keys.garlic.isSome ∧ Brings P S.keys.garlic .outbound g (c :: rs'.flatten)
        else Message.parseShort out = some (⟨.shortTunnelBuild, mid, fromSecs s, c :: rs'.flatten⟩, [])) := by
    have hplain := parseShort_own .shortTunnelBuild mid s (c :: rs'.flatten) hmid hsecs (by simp) (by omega)
    cases role with
    | inboundGateway => exact ⟨_, rfl, hplain⟩
    | participant => exact ⟨_, rfl, hplain⟩
    | outboundEndpoint =>
      obtain ⟨k, tag, hg, h8⟩ := hgar rfl
      obtain ⟨out, inner, g, e1, e2, e3, e4, e5⟩ := endpointReply_brings hP hD now s k tag h8 next mid (c :: rs'.flatten) hsecs hnow hmid hl'
      refine ⟨out, by simp only [hg, e1], inner, g, e2, e3, e4, ?_, ?_⟩
      · rw [hg]; rfl
      · rw [hg]; exact e5
  obtain ⟨out, hout, hshape⟩ := hmsg
  refine ⟨t', ⟨router, out, acc⟩, _, _, rs', ?_, hany, hans, by rw [hstat, w1], w1, rfl, ?_, hshape⟩
  · simp only [Transit.handleShort, hfind, hrecs, hget, heph, hct, bind_some_val, b1, b2, b3, unseal_seal hP, hparse,
      Option.bind_eq_bind, Option.bind_some, List.take_succ_cons, List.take_zero, hadm]
    rw [← hct, hrs']
    simp only [List.cons_append, List.nil_append]
    cases role with
    | inboundGateway => cases hout; rfl
    | participant => cases hout; rfl
    | outboundEndpoint =>
      revert hout
      cases S.keys.garlic with
      | none => intro h; cases h
      | some k => intro h; simp only at h ⊢; rw [h]; rfl
  · cases hw : willing t id with
    | true => rw [if_pos rfl]; exact w2 (by rw [w1, hw])
    | false => rw [if_neg (by simp)]; exact w3 (by rw [w1, hw])

/-! ## A case that meets the hypotheses -/

/-- Two routers of another implementation with answers of 202 bytes: `s1` and `s2` are their last bytes. -/
def demoPeers (s1 s2 : UInt8) : List Peer :=
  [⟨[3], List.replicate 32 3, List.replicate 201 7 ++ [s1]⟩, ⟨[4], List.replicate 32 4, List.replicate 201 8 ++ [s2]⟩]

theorem demo_setting (dir : Direction) (s1 s2 : UInt8) : Setting toyQ (demoParams dir) demoRnd (demoPeers s1 s2) where
  hops := rfl
  some := show 0 < 2 by decide
  few := show 2 ≤ 8 by decide
  hash := by
    intro q hq
    rcases List.mem_cons.mp hq with rfl | hq
    · rfl
    · rw [List.mem_singleton.mp hq]; rfl
  answers := by
    intro q hq
    rcases List.mem_cons.mp hq with rfl | hq
    · show (List.replicate 201 (7 : UInt8) ++ [s1]).length = 202
      rw [List.length_append, List.length_replicate]; rfl
    · rw [List.mem_singleton.mp hq]
      show (List.replicate 201 (8 : UInt8) ++ [s2]).length = 202
      rw [List.length_append, List.length_replicate]; rfl
  router := by simp [demoParams]
  mid := by show (555 : Nat) < 4294967296; omega
  gateway := by show (777 : Nat) < 4294967296; omega
  ids := fun i => show 1000 + i % 8 < 4294967296 by omega
  pad := by simp [demoRnd]
  fake := fun _ => List.length_replicate
  now := num1

/-- An outbound build through them: the creator's conclusion from an open reply, and what each of them read. -/
def demoAny (s1 s2 : UInt8) : Option (List (Option UInt8) × Built) :=
  match create toyQ (demoParams .outbound) demoRnd with
  | some (.ok (pending, _, m)) => do
    let (texts, final) ← anyPath toyQ 0 (demoPeers s1 s2) (records 218 m.payload)
    return (texts.map (·.1[40]?), tryBuild toyQ pending ⟨.outboundTunnelBuildReply, 555, 0, 5 :: final.flatten⟩)
  | _ => none

example : (demoAny 0 0).map (fun r => (r.1, match r.2 with | .tunnel hops => hops.map (·.tunnelId) | _ => [])) =
    some ([some 0, some 0x40], [1000, 1001]) := by decide +kernel
example : (demoAny 0 10).map (fun r => (r.1, match r.2 with | .failed _ => true | _ => false)) = some ([some 0, some 0x40], true) := by decide +kernel

/-- A record of another implementation with an option. -/
def demoText : Bytes :=
  recordText 21 22 (List.replicate 32 6) .participant [0, 0, 0] 1 600 99 (Mapping.serializeMulti [⟨[109], [49]⟩]) (List.replicate 90 1)

example : demoText.length = 154 ∧ (∀ m ∈ [(⟨[109], [49]⟩ : Mapping)], m.Ok Env.sample) := by
  refine ⟨by decide +kernel, ?_⟩
  intro m hm
  rw [List.mem_singleton.mp hm]
  constructor <;> decide

/-- A router with room takes part; one without refuses. -/
def demoHop (max : Nat) : Option (Bool × Bytes × List (Nat × Nat)) :=
  ((router 3 max).handleShort toyQ Env.sample 60000000000 ⟨.shortTunnelBuild, 7, fromSecs 70,
    2 :: [List.replicate 218 9, recordFor toyQ (List.replicate 32 3) (toyQ.pub [3]) (toyQ.pub [50]) (toyQ.dh [50] (toyQ.pub [3])) demoText].flatten⟩).map
    fun r => (r.2.feedback, r.2.router, r.1.tunnels.map fun t => (t.id, t.nextId))

example : demoHop 1 = some (true, List.replicate 32 6, [(21, 22)]) := by decide +kernel
example : demoHop 0 = some (false, List.replicate 32 6, []) := by decide +kernel

end Emissary.TBuild
