import Verif.Props.SessionTalk
/-!
# Garlic sessions: from the first message to a session in both directions
-/
namespace Emissary.Ecies
open Emissary Emissary.I2np Emissary.Garlic
open Emissary.Ssu2 (Prims)
open Emissary.Ntcp2 (unle le)
open Emissary.Ratchet

/-! ## Specification -/

/-- The payload of a request: time, lease set, message. -/
def requestPlain (v : Draw) (own remote leaseSet msg : Bytes) : Bytes :=
  (build [.dateTime (asSecs v.epoch), storeClove v 0 own leaseSet, dataClove v 1 remote msg]).getD []

/-- The payload of a reply: the message. -/
def replyPlain (v : Draw) (remote msg : Bytes) : Bytes := (build [dataClove v 0 remote msg]).getD []

/-- The destination with static key `a` and id `own` asks the one with static key `b` and id `remote`. -/
structure Ends where
  a : Bytes
  b : Bytes
  own : Bytes
  remote : Bytes
  leaseSet : Bytes

/-- A request for a session with a message. -/
def Ends.request (s : Ends) (C : Cfg) (x : Draw × Bytes) : Known × Bytes :=
  specRequest C.P C.E s.a x.1.esk (C.P.pub s.b) (requestPlain x.1 s.own s.remote s.leaseSet x.2)

/-- The `j`-th reply to a request. -/
def Ends.reply (s : Ends) (C : Cfg) (x : Draw × Bytes) (j : Nat) (y : Draw × Bytes) : Bytes × Bytes × Bytes × Bytes :=
  let k := (s.request C x).1
  specReply C.P C.E k y.1.esk (C.P.pub x.1.esk) (C.P.pub s.a) (replyTag C.P k j) (replyPlain y.1 s.own y.2)

/-- The tag sets: of the replies to a request, and of a reply for either direction. -/
def Ends.replyChain (s : Ends) (C : Cfg) (x : Draw × Bytes) : Chain :=
  Chain.new C.P (s.request C x).1.ck (hkdf C.P (s.request C x).1.ck [] lblReplyTags).1

def Ends.there (s : Ends) (C : Cfg) (x : Draw × Bytes) (j : Nat) (y : Draw × Bytes) : Chain :=
  Chain.new C.P (s.reply C x j y).2.1 (s.reply C x j y).2.2.1

def Ends.back (s : Ends) (C : Cfg) (x : Draw × Bytes) (j : Nat) (y : Draw × Bytes) : Chain :=
  Chain.new C.P (s.reply C x j y).2.1 (s.reply C x j y).2.2.2

/-- No two tags of the sets are equal. -/
def Apart (P : Prims) (cs : List Chain) : Prop :=
  (∀ c ∈ cs, Distinct P c) ∧ cs.Pairwise fun c c' => ∀ i < 65535, ∀ j < 65535, (c.entry P 0 i).tag ≠ (c'.entry P 0 j).tag

/-- None of the tags is in use. -/
def Unused (P : Prims) (m : Mgr) (cs : List Chain) : Prop := ∀ c ∈ cs, ∀ i < 65535, m.tags.map (c.entry P 0 i).tag = none

/-! ## Requests -/

theorem nsrGet_put (es : NsrEntries) (i : Nat) (e : Entry) (x : Nat) :
    nsrGet (nsrDel es e.tag ++ [(i, e)]) x = if x = e.tag then some (i, e) else nsrGet es x := by
  rw [nsrGet, List.find?_append]
  have h : (nsrDel es e.tag).find? (·.2.tag = x) = if x = e.tag then none else nsrGet es x := by
    rw [nsrDel, List.find?_filter]
    by_cases h : x = e.tag
    · rw [if_pos h, List.find?_eq_none]
      intro y _
      simp [h]
    · rw [if_neg h, nsrGet]
      congr 1
      funext y
      by_cases hy : y.2.tag = x
      · simp [hy, h]
      · simp [hy]
  rw [h]
  by_cases hx : x = e.tag
  · simp [hx]
  · rw [if_neg hx, if_neg hx]
    cases nsrGet es x <;> simp [Ne.symm hx]

theorem nsrGet_puts_ne (i : Nat) (new : List Entry) : ∀ (es : NsrEntries) (x : Nat), (∀ e ∈ new, e.tag ≠ x) → nsrGet (nsrPuts es i new) x = nsrGet es x := by
  induction new with
  | nil => intro es x _; rfl
  | cons e new ih =>
    intro es x h
    have e1 : nsrPuts es i (e :: new) = nsrPuts (nsrDel es e.tag ++ [(i, e)]) i new := rfl
    rw [e1, ih _ _ fun y hy => h y (List.mem_cons_of_mem _ hy), nsrGet_put, if_neg (Ne.symm (h e List.mem_cons_self))]

theorem nsrGet_puts_mem (i : Nat) (new : List Entry) : ∀ (es : NsrEntries), (new.map (·.tag)).Nodup → ∀ e ∈ new, nsrGet (nsrPuts es i new) e.tag = some (i, e) := by
  induction new with
  | nil => intro es _ e he; cases he
  | cons y new ih =>
    intro es h e he
    have e1 : nsrPuts es i (y :: new) = nsrPuts (nsrDel es y.tag ++ [(i, y)]) i new := rfl
    simp only [List.map_cons, List.nodup_cons, List.mem_map, not_exists, not_and] at h
    rcases List.mem_cons.mp he with rfl | he
    · rw [e1, nsrGet_puts_ne _ _ _ _ fun z hz => h.1 z hz, nsrGet_put, if_pos rfl]
    · rw [e1]; exact ih _ h.2 e he

/-- The session of a request. -/
def Ends.outbound (s : Ends) (C : Cfg) (x : Draw × Bytes) : Outbound :=
  { state := (s.request C x).1.h, sk := s.a, esk := x.1.esk, ck := (s.request C x).1.ck }

/-- The entries of its replies. -/
def Ends.replyEntries (s : Ends) (C : Cfg) (x : Draw × Bytes) : List Entry := (List.range' 0 C.T.nsr).map ((s.replyChain C x).entry C.P 0)

theorem open_request {C : Cfg} (s : Ends) {x : Draw × Bytes} (h : Sendable x.1 s.own s.remote s.leaseSet x.2) :
    openSession C x.1 (KeyCtx.new C.P s.a) s.own s.remote (C.P.pub s.b) s.leaseSet x.2 = some (s.outbound C x, (s.request C x).2) ∧
      ∃ bs, parse (requestPlain x.1 s.own s.remote s.leaseSet x.2) = some bs ∧ clovesOf bs = requestCloves x.1 s.own s.remote s.leaseSet x.2 ∧
        (∀ b ∈ bs, (∀ y, b ≠ .ack y) ∧ b ≠ .ackRequest) ∧ bs.findSome? storeBody = some (storeBuild s.own (.leaseSet2 s.leaseSet) .none) := by
  obtain ⟨plain, h0, h1, bs, h2, h3⟩ := openSession_spec (C := C) (a := s.a) (pk := C.P.pub s.b) h
  have hp : requestPlain x.1 s.own s.remote s.leaseSet x.2 = plain := by rw [requestPlain, h0]; rfl
  rw [C114_request_spec] at h1
  refine ⟨?_, bs, by rw [hp]; exact h2, h3⟩
  rw [h1, Ends.outbound, Ends.request, hp]

/-- `m` has sent the requests `xs`, and no answer came; `m0` is the manager before. -/
structure Asking (C : Cfg) (s : Ends) (m0 m : Mgr) (xs : List (Draw × Bytes)) : Prop where
  ctx : m.ctx = KeyCtx.new C.P s.a
  id : m.id = s.own
  ls : m.leaseSet = s.leaseSet
  active : m.active.get s.remote = none
  pend : (xs = [] ∧ m.pending.get s.remote = none ∧ m.remotes.get s.remote = some (C.P.pub s.b)) ∨
    ∃ cr nsr, m.pending.get s.remote = some ⟨cr, .awaitNsr (xs.map (s.outbound C)) (C.P.pub s.b) nsr []⟩ ∧
      ∀ (i : Nat) (x : Draw × Bytes) (j : Nat), xs[i]? = some x → j < C.T.nsr →
        nsrGet nsr ((s.replyChain C x).entry C.P 0 j).tag = some (i, (s.replyChain C x).entry C.P 0 j)
  tags : ∀ t, m.tags.map t = if t ∈ xs.flatMap (fun x => (s.replyEntries C x).map (·.tag)) then some s.remote else m0.tags.map t

theorem mem_replyEntries {C : Cfg} {s : Ends} {x : Draw × Bytes} {e : Entry} (h : e ∈ s.replyEntries C x) : ∃ j < C.T.nsr, e = (s.replyChain C x).entry C.P 0 j := by
  obtain ⟨j, hj, rfl⟩ := List.mem_map.mp h
  simp only [List.mem_range'_1] at hj
  exact ⟨j, by omega, rfl⟩

theorem ask_step {C : Cfg} (hN : C.T.nsr ≤ 65535) {s : Ends} {m0 m : Mgr} {xs : List (Draw × Bytes)} (h : Asking C s m0 m xs) {x : Draw × Bytes}
    (hx : Sendable x.1 s.own s.remote s.leaseSet x.2) (hap : Apart C.P ((xs ++ [x]).map (s.replyChain C))) :
    ∃ m', m.encrypt C x.1 s.remote x.2 = (.ok (prefixed (s.request C x).2), m') ∧ Asking C s m0 m' (xs ++ [x]) := by
  obtain ⟨ho, _⟩ := open_request (C := C) s hx
  have hr : (s.outbound C x).replyTags C.P C.T = some (s.replyEntries C x) := C123_tags_partial hN (s.request C x).1 _ _ _
  have hdx : Distinct C.P (s.replyChain C x) := hap.1 _ (by simp)
  have hnd : ((s.replyEntries C x).map (·.tag)).Nodup := firsts_nodup hdx hN 0
  have htags : ∀ t, ((m.tags).inserts s.remote ((s.replyEntries C x).map (·.tag))).map t =
      if t ∈ (xs ++ [x]).flatMap (fun x => (s.replyEntries C x).map (·.tag)) then some s.remote else m0.tags.map t := by
    intro t
    rw [inserts_map, h.tags]
    simp only [List.flatMap_append, List.mem_append, List.flatMap_singleton]
    grind
  have hget : ∀ nsr : NsrEntries, (∀ (i : Nat) (x : Draw × Bytes) (j : Nat), xs[i]? = some x → j < C.T.nsr →
        nsrGet nsr ((s.replyChain C x).entry C.P 0 j).tag = some (i, (s.replyChain C x).entry C.P 0 j)) →
      ∀ (i : Nat) (y : Draw × Bytes) (j : Nat), (xs ++ [x])[i]? = some y → j < C.T.nsr →
        nsrGet (nsrPuts nsr xs.length (s.replyEntries C x)) ((s.replyChain C y).entry C.P 0 j).tag = some (i, (s.replyChain C y).entry C.P 0 j) := by
    intro nsr hn i y j hi hj
    by_cases hl : i < xs.length
    · rw [List.getElem?_append_left hl] at hi
      rw [nsrGet_puts_ne, hn i y j hi hj]
      intro e he
      obtain ⟨l, hl', rfl⟩ := mem_replyEntries he
      have hp := hap.2
      rw [List.map_append, List.pairwise_append] at hp
      exact (hp.2.2 _ (List.mem_map_of_mem (List.mem_of_getElem? hi)) _ (by simp) j (by omega) l (by omega)).symm
    · rw [List.getElem?_append_right (by omega)] at hi
      have h0 : i - xs.length = 0 := by
        have := (List.getElem?_eq_some_iff.mp hi).1
        simpa using this
      rw [h0] at hi
      simp only [List.getElem?_cons_zero, Option.some.injEq] at hi
      subst hi
      have : i = xs.length := by omega
      rw [this]
      exact nsrGet_puts_mem _ _ _ hnd _ (List.mem_map_of_mem (by simp only [List.mem_range'_1]; omega))
  rcases h.pend with ⟨h1, h2, h3⟩ | ⟨cr, nsr, h1, h2⟩
  · subst h1
    refine ⟨_, by simp only [Mgr.encrypt, h.active, h2, h3, h.ctx, h.id, h.ls, ho, Pending.outbound, hr, Option.bind_eq_bind, Option.bind_some, Option.pure_def]; rfl, ?_⟩
    exact ⟨rfl, rfl, rfl, h.active, .inr ⟨_, _, Assoc.get_put .., hget [] (by simp)⟩, htags⟩
  · refine ⟨_, by simp only [Mgr.encrypt, h.active, h1, PState.advanceOut, h.ctx, h.id, h.ls, ho, hr]; rfl, ?_⟩
    refine ⟨rfl, rfl, rfl, h.active, .inr ⟨cr, nsrPuts nsr xs.length (s.replyEntries C x), ?_, hget nsr h2⟩, htags⟩
    simp only [Assoc.get_put, List.map_append, List.map_cons, List.map_nil, List.length_map]

theorem apart_left {P : Prims} {cs cs' : List Chain} (h : Apart P (cs ++ cs')) : Apart P cs :=
  ⟨fun c hc => h.1 c (List.mem_append_left _ hc), (List.pairwise_append.mp h.2).1⟩

theorem ask_all {C : Cfg} (hN : C.T.nsr ≤ 65535) {s : Ends} {m0 : Mgr} (l : List (Draw × Bytes)) : ∀ {m : Mgr} {xs : List (Draw × Bytes)}, Asking C s m0 m xs →
    (∀ x ∈ l, Sendable x.1 s.own s.remote s.leaseSet x.2) → Apart C.P ((xs ++ l).map (s.replyChain C)) →
    ∃ m', sendOuts C s.remote m l = some (l.map fun x => prefixed (s.request C x).2, m') ∧ Asking C s m0 m' (xs ++ l) := by
  induction l with
  | nil => intro m xs h _ _; exact ⟨m, rfl, by simpa using h⟩
  | cons x l ih =>
    intro m xs h hs hap
    have e : xs ++ x :: l = xs ++ [x] ++ l := by simp
    rw [e] at hap
    obtain ⟨m1, h1, h2⟩ := ask_step hN h (hs x List.mem_cons_self) (by rw [List.map_append] at hap; exact apart_left hap)
    obtain ⟨m2, h3, h4⟩ := ih h2 (fun y hy => hs y (List.mem_cons_of_mem _ hy)) hap
    exact ⟨m2, by simp only [sendOuts, h1, h3, Option.map_some, List.map_cons], by rw [e]; exact h4⟩

/-! ## Replies -/

theorem reply_payload {d : Bytes} {y : Draw × Bytes} (h : Fits d y) :
    build [dataClove y.1 0 d y.2] = some (replyPlain y.1 d y.2) ∧ parse (replyPlain y.1 d y.2) = some [(dataFor y.1 d y.2).onWire] := by
  obtain ⟨f1, f2, f3, f4⟩ := h
  obtain ⟨plain, hb, hp⟩ := C22_garlic_message_roundtrip [dataClove y.1 0 d y.2] (by simp) (by
    intro b hb
    simp only [List.mem_singleton] at hb
    subst hb
    exact ⟨f1, f2, f3, by simp only [prefixed, List.length_append, be_length]; omega⟩)
  have e : replyPlain y.1 d y.2 = plain := by rw [replyPlain, hb]; rfl
  rw [e]
  exact ⟨hb, hp⟩

theorem accept_request {C : Cfg} (hP : C.P.Lawful) {s : Ends} {n : Mgr} (hn : n.ctx = KeyCtx.new C.P s.b) (v : Draw) {x : Draw × Bytes}
    (hx : Sendable x.1 s.own s.remote s.leaseSet x.2) (he : Encodable C.P C.E x.1.esk)
    (hrd : C.readStore (storeBuild s.own (.leaseSet2 s.leaseSet) .none) = some (s.own, s.own)) (hp : n.pending.get s.own = none)
    (hu : n.tags.map (unle ((C.E.encode x.1.esk).take 8)) = none) :
    n.decrypt C v (prefixed (s.request C x).2) = (.ok (requestCloves x.1 s.own s.remote s.leaseSet x.2),
      { n with pending := n.pending.put s.own (Pending.inbound v (.fresh (s.request C x).1.ck (s.request C x).1.h (C.P.pub x.1.esk) (C.P.pub s.a))) }) := by
  obtain ⟨_, bs, h1, h2, h3, h4⟩ := open_request (C := C) s hx
  have hacc := C114_request hP he s.a s.b (requestPlain x.1 s.own s.remote s.leaseSet x.2)
  simp only at hacc
  have hacc : (KeyCtx.new C.P s.b).accept C.P C.E (prefixed (s.request C x).2) =
    .ok (.fresh (s.request C x).1.ck (s.request C x).1.h (C.P.pub x.1.esk) (C.P.pub s.a), requestPlain x.1 s.own s.remote s.leaseSet x.2) := hacc
  have htag : garlicTag (prefixed (s.request C x).2) = some (unle ((C.E.encode x.1.esk).take 8)) := by
    have hl : (s.request C x).2 = C.E.encode x.1.esk ++ ((s.request C x).2.drop 32) := by
      simp only [Ends.request, specRequest]
      rw [List.drop_left' he.1]
    rw [hl]
    have h12 : 12 ≤ (prefixed (C.E.encode x.1.esk ++ (s.request C x).2.drop 32)).length := by
      simp only [prefixed, List.length_append, be_length, he.1]; omega
    rw [garlicTag, if_pos h12, prefixed, List.drop_left' (be_length ..), List.take_append_of_le_length (by rw [he.1]; decide)]
    rfl
  simp only [Mgr.decrypt, htag, hu, Mgr.decryptNew, hn, hacc, h1, h4, hrd, hp]
  rw [if_neg (by simp)]
  simp only [Mgr.finish, h1]
  rw [blocks_plain _ _ _ h3]
  simp [h2, hn]

theorem reply_all {C : Cfg} {d : Bytes} (l : List (Draw × Bytes)) : ∀ {n : Mgr} {cr : Duration} {i i' : Inbound} {entries : List Entry} {sent : List (Bytes × List Entry)},
    n.active.get d = none → n.pending.get d = some ⟨cr, .inbound i entries⟩ → (∀ y ∈ l, Fits d y) →
    replies C.P C.E C.T C.chk i (l.map fun y => (y.1.esk, replyPlain y.1 d y.2)) = some (sent, i') →
    ∃ n', sendOuts C d n l = some (sent.map fun x => prefixed x.1, n') ∧ n'.active = n.active ∧ n'.id = n.id ∧
      n'.pending.get d = some ⟨cr, .inbound i' (entryPuts entries (sent.flatMap (·.2)))⟩ ∧ n'.tags = n.tags.inserts d ((sent.flatMap (·.2)).map (·.tag)) := by
  induction l with
  | nil =>
    intro n cr i i' entries sent ha hp _ hr
    cases hr
    exact ⟨n, rfl, rfl, rfl, hp, rfl⟩
  | cons y l ih =>
    intro n cr i i' entries sent ha hp hf hr
    have hb := (reply_payload (hf y List.mem_cons_self)).1
    simp only [List.map_cons, replies] at hr
    cases h1 : i.reply C.P C.E C.T C.chk y.1.esk (replyPlain y.1 d y.2) with
    | mk o i1 =>
      rw [h1] at hr
      cases o with
      | error e => cases hr
      | panic => cases hr
      | ok m =>
        simp only at hr
        cases h2 : replies C.P C.E C.T C.chk i1 (l.map fun y => (y.1.esk, replyPlain y.1 d y.2)) with
        | none => rw [h2] at hr; cases hr
        | some r =>
          rw [h2] at hr
          simp only [Option.map_some, Option.some.injEq, Prod.mk.injEq] at hr
          obtain ⟨rfl, rfl⟩ := hr
          obtain ⟨n', e1, e2, e3, e4, e5⟩ := ih (n := { n with tags := n.tags.inserts d (m.2.map (·.tag)), pending := n.pending.put d ⟨cr, .inbound i1 (entryPuts entries m.2)⟩ })
            ha (Assoc.get_put ..) (fun z hz => hf z (List.mem_cons_of_mem _ hz)) h2
          refine ⟨n', ?_, e2, e3, ?_, ?_⟩
          · simp only [sendOuts, Mgr.encrypt, ha, hp, PState.advanceOut, hb, h1, e1, Option.map_some, List.map_cons]
          · rw [e4]
            simp only [entryPuts, List.flatMap_cons, List.foldl_append]
          · rw [e5]
            simp only [TagMap.inserts, List.flatMap_cons, List.map_append, List.foldl_append]

/-! ## The first reply is read -/

/-- Neither direction of the session has made a ratchet. -/
def NoRatchet (a : Active) : Prop := a.s.send.state = .uninit ∧ a.s.recv.state = .uninit

theorem back_read {C : Cfg} (hP : C.P.Lawful) (hT : C.T.recv ≤ 65535) {s : Ends} {m0 m : Mgr} {xs : List (Draw × Bytes)} (h : Asking C s m0 m xs) {q : Nat}
    {x : Draw × Bytes} (hq : xs[q]? = some x) {j : Nat} (hj : j < C.T.nsr) (hN : C.T.nsr ≤ 65535) {y : Draw × Bytes} (hy : Fits s.own y) (hye : Encodable C.P C.E y.1.esk)
    (hd : Distinct C.P (s.back C x j y)) (hu : ∀ i < 65535, m.tags.map ((s.back C x j y).entry C.P 0 i).tag = none) (v : Draw) :
    ∃ m2, m.decrypt C v (prefixed (s.reply C x j y).1) = (.ok [received s.own y], m2) ∧
      ∀ z, Fits s.remote z → ∃ m3 a3, m2.encrypt C z.1 s.remote z.2 =
          (.ok (prefixed (Entry.seal C.P ((s.there C x j y).entry C.P 0 0) (replyPlain z.1 s.remote z.2))), m3) ∧
        Sending C m3 s.remote (s.there C x j y) 0 1 a3 ∧ a3.inAcks = [] ∧ a3.leaseSet = none ∧ a3.s.nsr.isSome ∧ NoRatchet a3 ∧
        Watching C m3 s.remote (s.back C x j y) 0 { n := C.T.recv, found := [] } := by
  rcases h.pend with ⟨h1, _⟩ | ⟨cr, nsr, h1, h2⟩
  · subst h1; cases hq
  have hn := h2 q x j hq hj
  have ho : (xs.map (s.outbound C))[q]? = some (s.outbound C x) := by rw [List.getElem?_map, hq]; rfl
  have hl8 : ∀ n, (le 8 n).length = 8 := fun n => by simp [le]
  have hhr := handle_spec hP (E := C.E) C.chk (s.request C x).1 s.a x.1.esk y.1.esk (replyPlain y.1 s.own y.2) hye ((s.replyChain C x).entry C.P 0 j)
  have hhr : (s.outbound C x).handleReply C.P C.E C.chk ((s.replyChain C x).entry C.P 0 j) (prefixed (s.reply C x j y).1) =
    .ok (replyPlain y.1 s.own y.2, TagSet.after C.P (s.reply C x j y).2.1 (s.reply C x j y).2.2.1 0, TagSet.after C.P (s.reply C x j y).2.1 (s.reply C x j y).2.2.2 0) := hhr
  have htag : garlicTag (prefixed (s.reply C x j y).1) = some ((s.replyChain C x).entry C.P 0 j).tag := by
    have hl : (s.reply C x j y).1 = le 8 ((s.replyChain C x).entry C.P 0 j).tag ++ ((s.reply C x j y).1.drop 8) := by
      simp only [Ends.reply, specReply]
      rw [List.drop_left' (hl8 _)]; rfl
    rw [hl]
    have h12 : 12 ≤ (prefixed (le 8 ((s.replyChain C x).entry C.P 0 j).tag ++ (s.reply C x j y).1.drop 8)).length := by
      simp only [prefixed, List.length_append, be_length, hl8]; omega
    rw [garlicTag, if_pos h12, prefixed, List.drop_left' (be_length ..), List.take_left' (hl8 _)]
    exact congrArg some (Ssu2.unle_le8 _ (tag_lt ..))
  have htd : m.tags.map ((s.replyChain C x).entry C.P 0 j).tag = some s.remote := by
    rw [h.tags, if_pos]
    exact List.mem_flatMap.mpr ⟨x, List.mem_of_getElem? hq, List.mem_map_of_mem (List.mem_map_of_mem (by simp only [List.mem_range'_1]; omega))⟩
  obtain ⟨_, hparse⟩ := reply_payload hy
  have hnx := nexts_after C.P (s.reply C x j y).2.1 (s.reply C x j y).2.2.2 C.T.recv 0 (by omega)
  have hcl : clovesOf [(dataFor y.1 s.own y.2).onWire] = [received s.own y] := rfl
  have hbs : ∀ b ∈ [(dataFor y.1 s.own y.2).onWire], (∀ x, b ≠ .ack x) ∧ b ≠ .ackRequest := by
    intro b hb
    simp only [List.mem_singleton] at hb
    subst hb
    simp [dataFor, Block.onWire]
  refine ⟨{ m with
      tags := (m.tags.remove ((s.replyChain C x).entry C.P 0 j).tag).inserts s.remote (((List.range' 0 C.T.recv).map ((s.back C x j y).entry C.P 0)).map (·.tag)),
      pending := m.pending.put s.remote ⟨cr, .awaitEs (xs.map (s.outbound C)) (TagSet.after C.P (s.reply C x j y).2.1 (s.reply C x j y).2.2.1 0)
        (TagSet.after C.P (s.reply C x j y).2.1 (s.reply C x j y).2.2.2 (0 + C.T.recv)) (C.P.pub s.b) (nsrDel nsr ((s.replyChain C x).entry C.P 0 j).tag)
        (entryPuts [] ((List.range' 0 C.T.recv).map ((s.back C x j y).entry C.P 0)))⟩ }, ?_, ?_⟩
  · simp only [Mgr.decrypt, htag, htd, Mgr.decryptTagged, h.active, h1, PState.advanceIn, hn, ho, hhr, hnx, Mgr.finish, hparse, blocks_plain s.remote _ _ hbs, hcl]
    simp only [Bool.false_and, Bool.false_eq_true, if_false]
    rfl
  intro z hz
  obtain ⟨hzb, _⟩ := reply_payload hz
  have hnext := next_after C.P (s.reply C x j y).2.1 (s.reply C x j y).2.2.1 (j := 0) (by decide)
  refine ⟨{ m with
      tags := (m.tags.remove ((s.replyChain C x).entry C.P 0 j).tag).inserts s.remote (((List.range' 0 C.T.recv).map ((s.back C x j y).entry C.P 0)).map (·.tag)),
      pending := (m.pending.put s.remote ⟨cr, .awaitEs (xs.map (s.outbound C)) (TagSet.after C.P (s.reply C x j y).2.1 (s.reply C x j y).2.2.1 0)
        (TagSet.after C.P (s.reply C x j y).2.1 (s.reply C x j y).2.2.2 (0 + C.T.recv)) (C.P.pub s.b) (nsrDel nsr ((s.replyChain C x).entry C.P 0 j).tag)
        (entryPuts [] ((List.range' 0 C.T.recv).map ((s.back C x j y).entry C.P 0)))⟩).del s.remote,
      active := m.active.put s.remote (Active.new z.1.now { nsr := some (z.1.now, nsrDel nsr ((s.replyChain C x).entry C.P 0 j).tag, xs.map (s.outbound C)), recv := TagSet.after C.P (s.reply C x j y).2.1 (s.reply C x j y).2.2.2 (0 + C.T.recv), send := TagSet.after C.P (s.reply C x j y).2.1 (s.reply C x j y).2.2.1 1, entries := entryPuts [] ((List.range' 0 C.T.recv).map ((s.back C x j y).entry C.P 0)) }) },
    Active.new z.1.now _, ?_, ⟨Assoc.get_put .., rfl, rfl, rfl, rfl⟩, rfl, rfl, rfl, ⟨rfl, rfl⟩, hT, by simp, ⟨_, Assoc.get_put .., ?_, ?_, rfl, fun i hi => ?_⟩, fun i hi => ?_⟩
  · simp only [Mgr.encrypt, h.active, Assoc.get_put, PState.advanceOut, hnext, hzb]
    rfl
  · simp only [Active.new, TagSet.after, Nat.zero_add]; rfl
  · simp only [Active.new, TagSet.after, Nat.zero_add]
  · have := firsts_get hd hT 0 hi
    simp only [Active.new, Window.readable, List.not_mem_nil, not_false_eq_true, and_true]
    exact this
  · simp only [inserts_map, Window.readable, List.not_mem_nil, not_false_eq_true, and_true]
    have hm := firsts_mem hd hT 0 hi
    by_cases h : i < C.T.recv
    · rw [if_pos (hm.mpr h), if_pos h]
    · rw [if_neg (fun hh => h (hm.mp hh)), if_neg h]
      simp only [TagMap.remove, hu i hi, ite_self]

/-! ## The first message of the session is read -/

theorem apart_nodup {P : Prims} {R : Nat} (hR : R ≤ 65535) (cs : List Chain) (h : Apart P cs) :
    ((cs.flatMap fun c => (List.range' 0 R).map (c.entry P 0)).map (·.tag)).Nodup := by
  induction cs with
  | nil => simp
  | cons c cs ih =>
    have h' : Apart P cs := ⟨fun d hd => h.1 d (List.mem_cons_of_mem _ hd), (List.pairwise_cons.mp h.2).2⟩
    rw [List.flatMap_cons, List.map_append, List.nodup_append]
    refine ⟨firsts_nodup (h.1 c List.mem_cons_self) hR 0, ih h', ?_⟩
    intro a ha b hb
    obtain ⟨e, he, rfl⟩ := List.mem_map.mp ha
    obtain ⟨i, hi, rfl⟩ := List.mem_map.mp he
    obtain ⟨e', he', rfl⟩ := List.mem_map.mp hb
    obtain ⟨c', hc', he''⟩ := List.mem_flatMap.mp he'
    obtain ⟨i', hi', rfl⟩ := List.mem_map.mp he''
    simp only [List.mem_range'_1] at hi hi'
    exact (List.pairwise_cons.mp h.2).1 c' hc' i (by omega) i' (by omega)

theorem apart_eq {P : Prims} {cs : List Chain} (h : Apart P cs) {c c' : Chain} (hc : c ∈ cs) (hc' : c' ∈ cs) {i i' : Nat} (hi : i < 65535) (hi' : i' < 65535)
    (e : (c.entry P 0 i).tag = (c'.entry P 0 i').tag) : i = i' ∧ c = c' := by
  obtain ⟨x, hx, rfl⟩ := List.mem_iff_getElem.mp hc
  obtain ⟨y, hy, rfl⟩ := List.mem_iff_getElem.mp hc'
  have hxy : x = y := by
    by_cases hlt : x < y
    · exact absurd e (List.pairwise_iff_getElem.mp h.2 x y hx hy hlt i hi i' hi')
    · by_cases hgt : y < x
      · exact absurd e.symm (List.pairwise_iff_getElem.mp h.2 y x hy hx hgt i' hi' i hi)
      · omega
  subst hxy
  exact ⟨h.1 _ hc i hi i' hi' e, rfl⟩

/-- The entries a responder watches for after its replies. -/
def Ends.watched (s : Ends) (C : Cfg) (x : Draw × Bytes) (l : List (Draw × Bytes)) : List Entry :=
  (l.mapIdx (s.there C x)).flatMap fun c => (List.range' 0 C.T.recv).map (c.entry C.P 0)

theorem there_read {C : Cfg} (hP : C.P.Lawful) (hT : C.T.recv ≤ 65535) (hT0 : 0 < C.T.recv) {s : Ends} {n : Mgr} {cr : Duration} {tags : TagMap} {x : Draw × Bytes}
    {l : List (Draw × Bytes)} {j : Nat} {y : Draw × Bytes} (hl : l[j]? = some y) {nsr : TagSet} {ck h X A : Bytes}
    (ha : n.active.get s.own = none)
    (hp : n.pending.get s.own = some ⟨cr, .inbound (.sent ((l.map fun y => (y.1.esk, replyPlain y.1 s.own y.2)).mapIdx (specSets C.P C.E C.T (s.request C x).1 (C.P.pub x.1.esk) (C.P.pub s.a)))
        (((l.map fun y => (y.1.esk, replyPlain y.1 s.own y.2)).mapIdx fun j fq => (specOut C.P C.E C.T (s.request C x).1 (C.P.pub x.1.esk) (C.P.pub s.a) j fq).2.map fun e => (e.tag, j)).flatten.reverse) nsr ck h X A)
        (entryPuts [] (s.watched C x l))⟩)
    (ht : n.tags = tags.inserts s.own ((s.watched C x l).map (·.tag)))
    (hap : Apart C.P (l.mapIdx (s.there C x))) (hu : ∀ i < 65535, tags.map ((s.there C x j y).entry C.P 0 i).tag = none) (v : Draw) {z : Draw × Bytes} (hz : Fits s.remote z) :
    ∃ n' a', n.decrypt C v (prefixed (Entry.seal C.P ((s.there C x j y).entry C.P 0 0) (replyPlain z.1 s.remote z.2))) = (.ok [received s.remote z], n') ∧
      Sending C n' s.own (s.back C x j y) 0 0 a' ∧ a'.inAcks = [] ∧ a'.leaseSet = none ∧ NoRatchet a' ∧ Watching C n' s.own (s.there C x j y) 0 { n := C.T.recv, found := [0] } := by
  have hmem : s.there C x j y ∈ l.mapIdx (s.there C x) := List.mem_of_getElem? (i := j) (by rw [List.getElem?_mapIdx, hl]; rfl)
  have hdis := hap.1 _ hmem
  have hnd := apart_nodup hT _ hap
  have hw : ∀ i, i < C.T.recv → (s.there C x j y).entry C.P 0 i ∈ s.watched C x l := fun i hi =>
    List.mem_flatMap.mpr ⟨_, hmem, List.mem_map_of_mem (by simp only [List.mem_range'_1]; omega)⟩
  have hget : ∀ i < 65535, entryGet (entryPuts [] (s.watched C x l)) ((s.there C x j y).entry C.P 0 i).tag =
      if i < C.T.recv then some ((s.there C x j y).entry C.P 0 i) else none := by
    intro i hi
    by_cases h : i < C.T.recv
    · rw [if_pos h]
      exact entryGet_puts_mem _ _ hnd _ (hw i h)
    · rw [if_neg h, entryGet_puts]
      · rfl
      · intro e he heq
        obtain ⟨c', hc', he'⟩ := List.mem_flatMap.mp he
        obtain ⟨i', hi', rfl⟩ := List.mem_map.mp he'
        simp only [List.mem_range'_1] at hi'
        have := (apart_eq hap hc' hmem (by omega) hi heq).1
        omega
  have hmap : ∀ i < 65535, n.tags.map ((s.there C x j y).entry C.P 0 i).tag = if i < C.T.recv then some s.own else none := by
    intro i hi
    rw [ht, inserts_map, hu i hi]
    by_cases h : i < C.T.recv
    · rw [if_pos h, if_pos (List.mem_map_of_mem (hw i h))]
    · rw [if_neg h, if_neg]
      intro hm
      obtain ⟨e, he, heq⟩ := List.mem_map.mp hm
      obtain ⟨c', hc', he'⟩ := List.mem_flatMap.mp he
      obtain ⟨i', hi', rfl⟩ := List.mem_map.mp he'
      simp only [List.mem_range'_1] at hi'
      have := (apart_eq hap hc' hmem (by omega) hi heq).1
      omega
  generalize hqs : (l.map fun y => (y.1.esk, replyPlain y.1 s.own y.2)) = qs at hp
  have hqj : qs[j]? = some (y.1.esk, replyPlain y.1 s.own y.2) := by rw [← hqs, List.getElem?_map, hl]; rfl
  have hfind : ((qs.mapIdx fun j fq => (specOut C.P C.E C.T (s.request C x).1 (C.P.pub x.1.esk) (C.P.pub s.a) j fq).2.map fun e => (e.tag, j)).flatten).reverse.find?
      (·.1 = ((s.there C x j y).entry C.P 0 0).tag) = some (((s.there C x j y).entry C.P 0 0).tag, j) := by
    refine find_rev _ ?_ (x := (((s.there C x j y).entry C.P 0 0).tag, j)) ?_
    · have e1 : ((qs.mapIdx fun j fq => (specOut C.P C.E C.T (s.request C x).1 (C.P.pub x.1.esk) (C.P.pub s.a) j fq).2.map fun e => (e.tag, j)).flatten).map (·.1) =
          (s.watched C x l).map (·.tag) := by
        rw [List.map_flatten, Ends.watched, List.flatMap_def, List.map_flatten]
        congr 1
        refine List.ext_getElem? fun i => ?_
        simp only [List.getElem?_map, List.getElem?_mapIdx, ← hqs]
        cases l[i]? with
        | none => rfl
        | some w =>
          simp only [Option.map_some, List.map_map, specOut, ← List.range_eq_range']
          rfl
      rw [e1]; exact hnd
    · refine List.mem_flatten.mpr ⟨_, List.mem_of_getElem? (i := j) (by rw [List.getElem?_mapIdx, hqj]; rfl), ?_⟩
      refine List.mem_map.mpr ⟨(s.there C x j y).entry C.P 0 0, ?_, rfl⟩
      simp only [specOut]
      exact List.mem_map.mpr ⟨0, by simpa using hT0, rfl⟩
  have hset : (qs.mapIdx (specSets C.P C.E C.T (s.request C x).1 (C.P.pub x.1.esk) (C.P.pub s.a)))[j]? =
      some (TagSet.after C.P (s.reply C x j y).2.1 (s.reply C x j y).2.2.2 0, TagSet.after C.P (s.reply C x j y).2.1 (s.reply C x j y).2.2.1 C.T.recv) := by
    rw [List.getElem?_mapIdx, hqj]; rfl
  have hopen := open_sealed hP ((s.there C x j y).entry C.P 0 0) (replyPlain z.1 s.remote z.2)
  have htag := tag_of_sealed C.P (s.there C x j y) 0 0 (replyPlain z.1 s.remote z.2)
  obtain ⟨_, hparse⟩ := reply_payload hz
  have hbs : ∀ b ∈ [(dataFor z.1 s.remote z.2).onWire], (∀ x, b ≠ .ack x) ∧ b ≠ .ackRequest := by
    intro b hb
    simp only [List.mem_singleton] at hb
    subst hb
    simp [dataFor, Block.onWire]
  have hcl : clovesOf [(dataFor z.1 s.remote z.2).onWire] = [received s.remote z] := rfl
  have hg0 := hget 0 (by decide)
  have hm0 := hmap 0 (by decide)
  rw [if_pos hT0] at hg0 hm0
  have hread : ∀ i, ({ n := C.T.recv, found := [0] } : Window).readable i ↔ i < C.T.recv ∧ i ≠ 0 := fun i => by simp [Window.readable]
  refine ⟨{ n with
      tags := n.tags.remove ((s.there C x j y).entry C.P 0 0).tag,
      pending := n.pending.del s.own,
      active := n.active.put s.own (Active.new v.now { nsr := none, recv := TagSet.after C.P (s.reply C x j y).2.1 (s.reply C x j y).2.2.1 C.T.recv, send := TagSet.after C.P (s.reply C x j y).2.1 (s.reply C x j y).2.2.2 0, entries := entryDel (entryPuts [] (s.watched C x l)) ((s.there C x j y).entry C.P 0 0).tag }) },
    _, ?_, ⟨Assoc.get_put .., rfl, rfl, rfl, rfl⟩, rfl, rfl, ⟨rfl, rfl⟩, hT, by simpa using hT0, ⟨_, Assoc.get_put .., rfl, rfl, rfl, fun i hi => ?_⟩, fun i hi => ?_⟩
  · simp only [Mgr.decrypt, htag, hm0, Mgr.decryptTagged, ha, hp, PState.advanceIn, hg0, Inbound.existing, hfind, hset, hopen, Mgr.finish, hparse, blocks_plain s.own _ _ hbs, hcl]
    simp only [Bool.false_and, Bool.false_eq_true, if_false]
  · simp only [Active.new, entryGet_del, hget i hi]
    by_cases h0 : i = 0
    · rw [if_pos (by rw [h0]), if_neg (by rw [hread]; exact fun h => h.2 h0)]
    · rw [if_neg (fun e => h0 (hdis i hi 0 (by decide) e))]
      by_cases h : i < C.T.recv
      · rw [if_pos h, if_pos ((hread i).mpr ⟨h, h0⟩)]
      · rw [if_neg h, if_neg (fun hr => h ((hread i).mp hr).1)]
  · simp only [TagMap.remove, hmap i hi]
    by_cases h0 : i = 0
    · rw [if_pos (by rw [h0]), if_neg (by rw [hread]; exact fun h => h.2 h0)]
    · rw [if_neg (fun e => h0 (hdis i hi 0 (by decide) e))]
      by_cases h : i < C.T.recv
      · rw [if_pos h, if_pos ((hread i).mpr ⟨h, h0⟩)]
      · rw [if_neg h, if_neg (fun hr => h ((hread i).mp hr).1)]

/-! ## C119: a session is established -/

/-- Two destinations that know nothing of each other except that the first one knows the key of the second. -/
structure Strangers (C : Cfg) (s : Ends) (m n : Mgr) : Prop where
  ids : m.id = s.own ∧ n.id = s.remote ∧ m.leaseSet = s.leaseSet
  keys : m.ctx = KeyCtx.new C.P s.a ∧ n.ctx = KeyCtx.new C.P s.b
  asker : m.active.get s.remote = none ∧ m.pending.get s.remote = none ∧ m.remotes.get s.remote = some (C.P.pub s.b)
  other : n.active.get s.own = none ∧ n.pending.get s.own = none
  store : C.readStore (storeBuild s.own (.leaseSet2 s.leaseSet) .none) = some (s.own, s.own)

/-- C119 in part: whatever number of messages `m` sends before an answer comes, whichever of them is the first to arrive, whatever number of messages
`n` sends then, whichever of these is the first to arrive (among the first sixteen): the first message of `m` after that establishes a session on both
sides. All these messages are read. Afterwards both sides send with what the other side watches for. (That no two of the tags are equal is assumed, and
that only `m` opens a session.) -/
theorem C119_established_partial {C : Cfg} (hP : C.P.Lawful) (hN : C.T.nsr ≤ 65535) (hT : C.T.recv ≤ 65535) (hT0 : 0 < C.T.recv) {s : Ends} {m n : Mgr}
    (h : Strangers C s m n) {xs ys : List (Draw × Bytes)} (hxs : ∀ x ∈ xs, Sendable x.1 s.own s.remote s.leaseSet x.2 ∧ Encodable C.P C.E x.1.esk)
    (hys : ∀ y ∈ ys, Fits s.own y ∧ Encodable C.P C.E y.1.esk) (hyl : ys.length ≤ 65535) {q j : Nat} {x y z : Draw × Bytes} (hq : xs[q]? = some x)
    (hj : ys[j]? = some y) (hjn : j < C.T.nsr) (hz : Fits s.remote z)
    (hu : n.tags.map (unle ((C.E.encode x.1.esk).take 8)) = none)
    (hm : Apart C.P (xs.map (s.replyChain C) ++ [s.back C x j y]) ∧ Unused C.P m [s.back C x j y])
    (hn : Apart C.P (ys.mapIdx (s.there C x)) ∧ Unused C.P n (ys.mapIdx (s.there C x))) (v1 v2 v3 : Draw) :
    ∃ outs m1, sendOuts C s.remote m xs = some (outs, m1) ∧
    ∃ request n1, outs[q]? = some request ∧ n.decrypt C v1 request = (.ok (requestCloves x.1 s.own s.remote s.leaseSet x.2), n1) ∧
    ∃ replies n2, sendOuts C s.own n1 ys = some (replies, n2) ∧
    ∃ reply m2, replies[j]? = some reply ∧ m1.decrypt C v2 reply = (.ok [received s.own y], m2) ∧
    ∃ first m3, m2.encrypt C z.1 s.remote z.2 = (.ok first, m3) ∧
    ∃ n3, n2.decrypt C v3 first = (.ok [received s.remote z], n3) ∧
    ∃ a3 b3, Sending C m3 s.remote (s.there C x j y) 0 1 a3 ∧ Watching C n3 s.own (s.there C x j y) 0 { n := C.T.recv, found := [0] } ∧
      Sending C n3 s.own (s.back C x j y) 0 0 b3 ∧ Watching C m3 s.remote (s.back C x j y) 0 { n := C.T.recv, found := [] } ∧
      a3.inAcks = [] ∧ a3.leaseSet = none ∧ b3.inAcks = [] ∧ b3.leaseSet = none ∧ NoRatchet a3 ∧ NoRatchet b3 ∧
      12 < request.length ∧ 12 < reply.length ∧ 12 < first.length := by
  have hx := hxs x (List.mem_of_getElem? hq)
  have hy := hys y (List.mem_of_getElem? hj)
  obtain ⟨m1, e1, e2⟩ := ask_all (C := C) hN (s := s) (m0 := m) xs (m := m) (xs := []) ⟨h.keys.1, h.ids.1, h.ids.2.2, h.asker.1, .inl ⟨rfl, h.asker.2⟩, by simp⟩
    (fun x hx => (hxs x hx).1) (by simpa using apart_left hm.1)
  rw [List.nil_append] at e2
  refine ⟨_, m1, e1, _, _, by rw [List.getElem?_map, hq]; rfl, accept_request hP h.keys.2 v1 hx.1 hx.2 h.store h.other.2 hu, ?_⟩
  have hl0 : ys.map (fun y => (y.1.esk, replyPlain y.1 s.own y.2)) ≠ [] := by
    intro e
    rw [List.map_eq_nil_iff] at e
    rw [e] at hj; cases hj
  have hrep := replies_fresh C.P C.E hT C.chk (s.request C x).1 (C.P.pub x.1.esk) (C.P.pub s.a) (ys.map fun y => (y.1.esk, replyPlain y.1 s.own y.2)) hl0 (by simpa using hyl)
  obtain ⟨n2, f1, f2, f3, f4, f5⟩ := reply_all (C := C) (d := s.own) ys
    (n := { n with pending := n.pending.put s.own (Pending.inbound v1 (.fresh (s.request C x).1.ck (s.request C x).1.h (C.P.pub x.1.esk) (C.P.pub s.a))) })
    h.other.1 (Assoc.get_put ..) (fun y hy => (hys y hy).1) hrep
  refine ⟨_, n2, f1, ?_⟩
  have hw : (((ys.map fun y => (y.1.esk, replyPlain y.1 s.own y.2)).mapIdx (specOut C.P C.E C.T (s.request C x).1 (C.P.pub x.1.esk) (C.P.pub s.a))).flatMap (·.2)) = s.watched C x ys := by
    rw [Ends.watched, List.flatMap_def, List.flatMap_def]
    congr 1
    refine List.ext_getElem? fun i => ?_
    simp only [List.getElem?_map, List.getElem?_mapIdx]
    cases ys[i]? with
    | none => rfl
    | some w =>
      simp only [Option.map_some, specOut, ← List.range_eq_range']
      rfl
  rw [hw] at f4 f5
  have hback : Distinct C.P (s.back C x j y) := hm.1.1 _ (by simp)
  obtain ⟨m2, g1, g2⟩ := back_read hP hT e2 hq hjn hN hy.1 hy.2 hback (by
    intro i hi
    rw [e2.tags, if_neg]
    · exact hm.2 _ (by simp) i hi
    · intro hmem
      obtain ⟨x', hx', he⟩ := List.mem_flatMap.mp hmem
      obtain ⟨e, he, heq⟩ := List.mem_map.mp he
      obtain ⟨l, hl, rfl⟩ := mem_replyEntries he
      have := (List.pairwise_append.mp hm.1.2).2.2 _ (List.mem_map_of_mem hx') _ (List.mem_singleton_self _) l (by omega) i hi
      exact this heq) v2
  obtain ⟨m3, a3, g3, g4, g5, g6, _, g8, g7⟩ := g2 z hz
  obtain ⟨n3, b3, k1, k2, k3, k4, k6, k5⟩ := there_read hP hT hT0 hj (by rw [f2]; exact h.other.1) f4 f5 hn.1 (fun i hi =>
    hn.2 _ (List.mem_of_getElem? (i := j) (by rw [List.getElem?_mapIdx, hj]; rfl)) i hi) v3 hz
  refine ⟨_, m2, by rw [List.getElem?_map, List.getElem?_mapIdx, List.getElem?_map, hj]; rfl, g1, _, m3, g3, n3, k1, a3, b3, g4, k5, k2, g7, g5, g6, k3, k4, g8, k6, ?_, ?_, ?_⟩
  · simp only [prefixed, Ends.request, specRequest, List.length_append, be_length, hx.2.1]
    omega
  · show 12 < (prefixed (s.reply C x j y).1).length
    simp only [prefixed, Ends.reply, specReply, List.length_append, be_length, hy.2.1]
    omega
  · have h8 : ∀ x, (le 8 x).length = 8 := fun x => by simp [le]
    simp only [prefixed, Entry.seal, Ssu2.Crypto.seal, List.length_append, be_length, h8, hP.crypto.aead.len]
    omega

end Emissary.Ecies
