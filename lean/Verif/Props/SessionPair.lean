import Verif.Props.SessionCrash
/-!
# Garlic sessions: two destinations, lease sets, idle sessions
-/
namespace Emissary.Ecies
open Emissary Emissary.I2np Emissary.Garlic
open Emissary.Ssu2 (Prims)
open Emissary.Ntcp2 (unle le)
open Emissary.Ratchet

/-! ## C119: sessions between two destinations -/

/-- An attempt to open a session with `d` that was not answered. -/
def Opening (m : Mgr) (d : Bytes) : Prop := m.active.get d = none ∧ ∃ t outs pk nsr es, m.pending.get d = some ⟨t, .awaitNsr outs pk nsr es⟩

/-- What a request for a session with a message contains. -/
def requestCloves (v : Draw) (own remote leaseSet msg : Bytes) : List Clove :=
  let expiration := (v.epoch + cloveLife) / 1000000000 * 1000000000
  [{ type := .databaseStore, id := v.ids 0, expiration, delivery := .localNode, body := storeBuild own (.leaseSet2 leaseSet) .none },
    { type := .data, id := v.ids 1, expiration, delivery := .destination remote, body := be 4 msg.length ++ msg }]

/-- The sizes and times of a message that can be sent. -/
structure Sendable (v : Draw) (own remote leaseSet msg : Bytes) : Prop where
  epoch : (v.epoch + cloveLife) / 1000000000 < 2 ^ 32
  ids : v.ids 0 < 2 ^ 32 ∧ v.ids 1 < 2 ^ 32
  remote : remote.length = 32
  lease : (storeBuild own (.leaseSet2 leaseSet) .none).length + 46 < 2 ^ 16
  msg : msg.length + 50 < 2 ^ 16

theorem openSession_spec {C : Cfg} {v : Draw} {a own remote pk leaseSet msg : Bytes} (h : Sendable v own remote leaseSet msg) :
    ∃ plain, build [.dateTime (asSecs v.epoch), storeClove v 0 own leaseSet, dataClove v 1 remote msg] = some plain ∧
      openSession C v (KeyCtx.new C.P a) own remote pk leaseSet msg = some ((KeyCtx.new C.P a).newSession C.P C.E pk v.esk plain) ∧
      ∃ bs, parse plain = some bs ∧ clovesOf bs = requestCloves v own remote leaseSet msg ∧ (∀ b ∈ bs, (∀ x, b ≠ .ack x) ∧ b ≠ .ackRequest) ∧
        bs.findSome? storeBody = some (storeBuild own (.leaseSet2 leaseSet) .none) := by
  have hok : ∀ b ∈ [Block.dateTime (asSecs v.epoch), storeClove v 0 own leaseSet, dataClove v 1 remote msg], b.Ok := by
    intro b hb
    simp only [List.mem_cons, List.not_mem_nil, or_false] at hb
    have he := h.epoch
    rcases hb with rfl | rfl | rfl
    · show asSecs v.epoch < 2 ^ 32
      have : v.epoch / 1000000000 ≤ (v.epoch + cloveLife) / 1000000000 := Nat.div_le_div_right (Nat.le_add_right ..)
      exact Nat.lt_of_le_of_lt this he
    · exact ⟨h.ids.1, h.epoch, trivial, h.lease⟩
    · refine ⟨h.ids.2, h.epoch, h.remote, ?_⟩
      have := h.msg
      simp only [prefixed, List.length_append, be_length]; omega
  obtain ⟨plain, hb, hp⟩ := C22_garlic_message_roundtrip _ (by simp) hok
  refine ⟨plain, hb, by simp only [openSession, hb]; rfl, _, hp, rfl, ?_, rfl⟩
  intro b hb
  simp only [List.map_cons, List.map_nil, List.mem_cons, List.not_mem_nil, or_false] at hb
  rcases hb with rfl | rfl | rfl <;> simp [Block.onWire, storeClove, dataClove]

/-- What is sent while no session is established is a request for one. -/
theorem request_out {C : Cfg} {v : Draw} {m : Mgr} {d msg out : Bytes} (ha : m.active.get d = none)
    (hp : Opening m d ∨ m.pending.get d = none) (ho : (m.encrypt C v d msg).1 = .ok out) :
    ∃ pk o x, openSession C v m.ctx m.id d pk m.leaseSet msg = some (o, x) ∧ out = prefixed x ∧ Opening (m.encrypt C v d msg).2 d ∧
      (m.pending.get d = none → m.remotes.get d = some pk) ∧
      (∀ t outs pk' nsr es, m.pending.get d = some ⟨t, .awaitNsr outs pk' nsr es⟩ → pk = pk') := by
  rcases hp with ⟨_, t, outs, pk, nsr, es, hp⟩ | hp
  · simp only [Mgr.encrypt, ha, hp, PState.advanceOut] at ho ⊢
    cases h1 : openSession C v m.ctx m.id d pk m.leaseSet msg with
    | none => rw [h1] at ho; cases ho
    | some r =>
      obtain ⟨o, x⟩ := r
      rw [h1] at ho
      cases h2 : o.replyTags C.P C.T with
      | none => simp only [h2] at ho; cases ho
      | some new =>
        simp only [h2] at ho ⊢
        cases ho
        refine ⟨pk, o, x, h1, rfl, ⟨ha, _, _, _, _, _, Assoc.get_put ..⟩, ?_, ?_⟩
        · intro h; cases h
        · intro t' outs' pk' nsr' es' h; cases h; rfl
  · simp only [Mgr.encrypt, ha, hp, invalid] at ho ⊢
    cases h0 : m.remotes.get d with
    | none => rw [h0] at ho; revert ho; cases C.chk <;> simp
    | some pk =>
      simp only [h0] at ho ⊢
      cases h1 : openSession C v m.ctx m.id d pk m.leaseSet msg with
      | none => rw [h1] at ho; cases ho
      | some r =>
        obtain ⟨o, x⟩ := r
        simp only [h1, Pending.outbound] at ho ⊢
        cases h2 : o.replyTags C.P C.T with
        | none => rw [h2] at ho; cases ho
        | some new =>
          simp only [h2] at ho ⊢
          cases ho
          exact ⟨pk, o, x, h1, rfl, ⟨ha, _, _, _, _, _, Assoc.get_put ..⟩, fun _ => rfl, fun _ _ _ _ _ h => by cases h⟩

/-- C119 in part: a message sent while no session is established reaches the other side with the lease set, whatever state its sessions are in
and also if both sides are opening a session at the same time. -/
theorem C119_first_messages_partial {C : Cfg} (hP : C.P.Lawful) {v : Draw} {m n : Mgr} {a b d msg out : Bytes} (v' : Draw)
    (hm : m.ctx = KeyCtx.new C.P a) (hn : n.ctx = KeyCtx.new C.P b) (he : Encodable C.P C.E v.esk)
    (ha : m.active.get d = none)
    (hp : (m.pending.get d = none ∧ m.remotes.get d = some (C.P.pub b)) ∨ ∃ t outs nsr es, m.pending.get d = some ⟨t, .awaitNsr outs (C.P.pub b) nsr es⟩)
    (hsz : Sendable v m.id d m.leaseSet msg) (hrd : C.readStore (storeBuild m.id (.leaseSet2 m.leaseSet) .none) = some (m.id, m.id))
    (ho : (m.encrypt C v d msg).1 = .ok out) {tag : Nat} (ht : garlicTag out = some tag) (hu : n.tags.map tag = none) :
    (n.decrypt C v' out).1 = .ok (requestCloves v m.id d m.leaseSet msg) := by
  obtain ⟨pk, o, x, h1, rfl, _, h2, h3⟩ := request_out ha (by
    rcases hp with ⟨h, _⟩ | ⟨t, outs, nsr, es, h⟩
    · exact .inr h
    · exact .inl ⟨ha, t, outs, _, nsr, es, h⟩) ho
  have hpk : pk = C.P.pub b := by
    rcases hp with ⟨h, hr⟩ | ⟨t, outs, nsr, es, h⟩
    · have := h2 h; rw [hr] at this; cases this; rfl
    · exact h3 _ _ _ _ _ h
  subst hpk
  obtain ⟨plain, _, h4, bs, h5, h6, h7, h8⟩ := openSession_spec (C := C) (a := a) (pk := C.P.pub b) hsz
  rw [hm, h4] at h1
  have hx : x = (specRequest C.P C.E a v.esk (C.P.pub b) plain).2 := by
    have := C114_request_spec C.P C.E a v.esk (C.P.pub b) plain
    simp only at this
    rw [this] at h1
    cases h1; rfl
  have hacc := C114_request hP he a b plain
  simp only at hacc
  rw [← hx] at hacc
  have hg : garlic x = prefixed x := rfl
  rw [hg] at hacc
  simp only [Mgr.decrypt, ht, hu, Mgr.decryptNew, hn, hacc, h5, h8, hrd]
  rw [if_neg (by simp)]
  simp only [Mgr.finish, h5]
  rw [blocks_plain _ _ _ h7]
  simp [h6]

theorem asker_ctx : asker.ctx = KeyCtx.new samplePrims [2] := rfl

/-- The hypotheses hold for the request of the sample, and for a second message that is sent before an answer came. -/
example : (((Mgr.new storeCfg idB [3] [4]).decrypt storeCfg askDraw question).1 = .ok (requestCloves askDraw idA idB [3] [1, 2])) ∧
    (match (asked.encrypt storeCfg { askDraw with esk := [8] } idB [7]).1 with
      | .ok out => ((Mgr.new storeCfg idB [3] [4]).decrypt storeCfg askDraw out).1
      | _ => .panic) = .ok (requestCloves askDraw idA idB [3] [7]) := by decide +kernel

example : Sendable askDraw idA idB [3] [1, 2] ∧ Encodable samplePrims sampleE [5] :=
  ⟨⟨by decide, by decide, by decide, by decide, by decide⟩, by decide, by decide⟩

/-- Two destinations and the messages between them that were sent, with the sender. -/
structure Net where
  a : Mgr
  b : Mgr
  sent : List (Bool × Bytes) := []

/-- A request of `m` for a session with `d`. -/
def Request (C : Cfg) (m : Mgr) (d msg : Bytes) : Prop := ∃ v pk ls data o x, openSession C v m.ctx m.id d pk ls data = some (o, x) ∧ msg = prefixed x

/-- Either sends messages, and any message that was sent may arrive at the other side, early, late, repeatedly or never. A request does not by
accident begin with a tag that is watched for. -/
inductive Net.Step (C : Cfg) (ida idb : Bytes) : Net → Net → Prop
  | sendA (v : Draw) (msg : Bytes) (n : Net) (out : Bytes) : (n.a.encrypt C v idb msg).1 = .ok out →
      Net.Step C ida idb n { n with a := (n.a.encrypt C v idb msg).2, sent := (true, out) :: n.sent }
  | sendB (v : Draw) (msg : Bytes) (n : Net) (out : Bytes) : (n.b.encrypt C v ida msg).1 = .ok out →
      Net.Step C ida idb n { n with b := (n.b.encrypt C v ida msg).2, sent := (false, out) :: n.sent }
  | arriveA (v : Draw) (n : Net) (msg : Bytes) (tag : Nat) : (false, msg) ∈ n.sent → garlicTag msg = some tag →
      (Request C n.b ida msg → n.a.tags.map tag = none) → Net.Step C ida idb n { n with a := (n.a.decrypt C v msg).2 }
  | arriveB (v : Draw) (n : Net) (msg : Bytes) (tag : Nat) : (true, msg) ∈ n.sent → garlicTag msg = some tag →
      (Request C n.a idb msg → n.b.tags.map tag = none) → Net.Step C ida idb n { n with b := (n.b.decrypt C v msg).2 }

inductive Net.Steps (C : Cfg) (ida idb : Bytes) : Net → Net → Prop
  | refl (n : Net) : Net.Steps C ida idb n n
  | tail {n n' n'' : Net} : Net.Steps C ida idb n n' → Net.Step C ida idb n' n'' → Net.Steps C ida idb n n''

/-- A request leaves an attempt to open a session as it is. -/
theorem opening_request {C : Cfg} (v : Draw) {m : Mgr} {d msg : Bytes} {tag : Nat} (h : Opening m d) (ht : garlicTag msg = some tag)
    (hu : m.tags.map tag = none) : Opening (m.decrypt C v msg).2 d := by
  obtain ⟨ha, t, outs, pk, nsr, es, hp⟩ := h
  obtain ⟨h1, _⟩ := C116_replay_keeps_partial (C := C) v ht hu d
  refine ⟨?_, t, outs, pk, nsr, es, h1 _ hp⟩
  simp only [Mgr.decrypt, ht, hu]
  have h2 : (m.decryptNew C v msg).2.active = m.active := by
    simp only [Mgr.decryptNew]
    repeat' split
    all_goals rfl
  split <;> (rename_i h3; rw [h3] at h2; replace h2 := congrArg (Assoc.get · d) h2; simp only [ha] at h2)
  · exact h2
  · simp only [Mgr.finish]
    split
    · exact h2
    · split <;> exact (blocks_none d _ _ _ _ h2).1

theorem encrypt_id (C : Cfg) (v : Draw) (m : Mgr) (d msg : Bytes) : (m.encrypt C v d msg).2.id = m.id := by
  have hr : ∀ (m : Mgr) (d : Bytes), (m.removeSession d).id = m.id := fun m d => by simp only [Mgr.removeSession]; split <;> rfl
  simp only [Mgr.encrypt]
  repeat' split
  all_goals first
    | rfl
    | rw [hr]

theorem blocks_id (d : Bytes) (tag : Nat × Nat) (bs : List Block) : ∀ m : Mgr, (Mgr.blocks d tag bs m).2.2.id = m.id := by
  induction bs with
  | nil => intro m; rfl
  | cons b bs ih =>
    intro m
    cases b with
    | ackRequest => simp only [Mgr.blocks]; split <;> simp only [ih]
    | ack acks => simp only [Mgr.blocks]; split <;> simp only [ih]
    | _ => simp only [Mgr.blocks, ih]

theorem decrypt_id (C : Cfg) (v : Draw) (m : Mgr) (msg : Bytes) : (m.decrypt C v msg).2.id = m.id := by
  have hr : ∀ (m : Mgr) (d : Bytes), (m.removeSession d).id = m.id := fun m d => by simp only [Mgr.removeSession]; split <;> rfl
  have hf : ∀ (m : Mgr) d tag plain, (m.finish C d tag plain).2.id = m.id := by
    intro m d tag plain
    simp only [Mgr.finish]
    split
    · rfl
    · split <;> exact blocks_id ..
  simp only [Mgr.decrypt]
  split
  · rfl
  · split
    · have h1 : (m.decryptNew C v msg).2.id = m.id := by
        simp only [Mgr.decryptNew]
        repeat' split
        all_goals rfl
      split <;> (rename_i h2; rw [h2] at h1)
      · exact h1
      · rw [hf]; exact h1
    · rename_i tag _ _ d _
      have h1 : (({ m with tags := m.tags.remove tag } : Mgr).decryptTagged C v d tag msg).2.id = m.id := by
        simp only [Mgr.decryptTagged]
        repeat' split
        all_goals first
          | rfl
          | rw [hr]
      split <;> (rename_i h2; rw [h2] at h1)
      · exact h1
      · exact h1
      · rw [hf]; exact h1

/-- C119 does not hold: if both destinations open a session at the same time, none is ever established before the attempts expire, however
many messages they exchange and in whatever order they arrive: each ignores the requests of the other. -/
theorem C119_simultaneous_violated {C : Cfg} {ida idb : Bytes} {n n' : Net} (ha : Opening n.a idb) (hb : Opening n.b ida) (hs : n.sent = [])
    (h : Net.Steps C ida idb n n') : Opening n'.a idb ∧ Opening n'.b ida := by
  have key : Opening n'.a idb ∧ Opening n'.b ida ∧ (∀ x, (true, x) ∈ n'.sent → Request C n'.a idb x) ∧ (∀ x, (false, x) ∈ n'.sent → Request C n'.b ida x) := by
    have req : ∀ {m m' : Mgr} {d x : Bytes}, m'.ctx = m.ctx → m'.id = m.id → Request C m d x → Request C m' d x := by
      rintro m m' d x h1 h2 ⟨v, pk, ls, data, o, y, h3, h4⟩
      exact ⟨v, pk, ls, data, o, y, by rw [h1, h2]; exact h3, h4⟩
    induction h with
    | refl => rw [hs]; exact ⟨ha, hb, by simp, by simp⟩
    | tail _ st ih =>
      obtain ⟨h1, h2, h3, h4⟩ := ih
      cases st with
      | sendA v msg _ out ho =>
        obtain ⟨pk, o, x, e1, e2, e3, _⟩ := request_out h1.1 (.inl h1) ho
        refine ⟨e3, h2, ?_, fun x hx => h4 x (by simpa using hx)⟩
        intro y hy
        simp only [List.mem_cons, Prod.mk.injEq, true_and] at hy
        refine req (step_ctx C _ (.encrypt v idb msg)) (encrypt_id ..) ?_
        rcases hy with rfl | hy
        · exact ⟨v, pk, _, msg, o, x, e1, e2⟩
        · exact h3 y hy
      | sendB v msg _ out ho =>
        obtain ⟨pk, o, x, e1, e2, e3, _⟩ := request_out h2.1 (.inl h2) ho
        refine ⟨h1, e3, fun x hx => h3 x (by simpa using hx), ?_⟩
        intro y hy
        simp only [List.mem_cons, Prod.mk.injEq, true_and] at hy
        refine req (step_ctx C _ (.encrypt v ida msg)) (encrypt_id ..) ?_
        rcases hy with rfl | hy
        · exact ⟨v, pk, _, msg, o, x, e1, e2⟩
        · exact h4 y hy
      | arriveA v _ msg tag hm ht hu =>
        exact ⟨opening_request v h1 ht (hu (h4 msg hm)), h2, fun x hx => req (step_ctx C _ (.decrypt v msg)) (decrypt_id ..) (h3 x hx), h4⟩
      | arriveB v _ msg tag hm ht hu =>
        exact ⟨h1, opening_request v h2 ht (hu (h3 msg hm)), h3, fun x hx => req (step_ctx C _ (.decrypt v msg)) (decrypt_id ..) (h4 x hx)⟩
  exact ⟨key.1, key.2.1⟩

/-- The other side's attempt. -/
def asker' : Mgr := (Mgr.new storeCfg idB [3] [4]).addRemote idA (samplePrims.pub [2])
def asked' : Mgr := (asker'.encrypt storeCfg { askDraw with esk := [6] } idA [3]).2

/-- Both opening; and a message is sent and arrives. -/
example : ((match asked.pending.get idB with | some ⟨_, .awaitNsr ..⟩ => true | _ => false) = true ∧ asked.active.get idB = none) ∧
    ((match asked'.pending.get idA with | some ⟨_, .awaitNsr ..⟩ => true | _ => false) = true ∧ asked'.active.get idA = none) ∧
    (match asked.encrypt storeCfg { askDraw with esk := [8] } idB [7] with
      | (.ok out, _) => (garlicTag out).isSome && (garlicTag out).all fun t => (asked'.tags.map t).isNone
      | _ => false) = true := by decide +kernel

/-! ## C120: a destination that restarts -/

/-- C120 does not hold: if a destination loses its sessions (it restarts) and asks for a new one, the other side goes on with the old session:
the request changes neither the session nor its tags, and what is sent next carries the next tag of the old session, which the restarted
destination does not know: it refuses the message. -/
theorem C120_restart_violated {C : Cfg} (v v' v'' : Draw) {m : Mgr} {d request : Bytes} {act : Active} (ha : m.active.get d = some act) {tag : Nat}
    (ht : garlicTag request = some tag) (hu : m.tags.map tag = none) {c : Chain} {i : Nat} (hc : act.s.send.chain = c.iter C.P i)
    (hi : act.s.send.index = i) {data out : Bytes} (ho : ((m.decrypt C v request).2.encrypt C v' d data).1 = .ok out)
    {restarted : Mgr} (hr : restarted.tags.map (c.entry C.P act.s.send.id i).tag = none) {e : Err} (he : restarted.ctx.accept C.P C.E out = .error e) :
    (∃ act', (m.decrypt C v request).2.active.get d = some act' ∧ act'.s = act.s) ∧
    garlicTag out = some (c.entry C.P act.s.send.id i).tag ∧ restarted.decrypt C v'' out = (.error e, restarted) := by
  obtain ⟨_, _, h1⟩ := C116_replay_keeps_partial (C := C) v ht hu d
  obtain ⟨act', h2, h3⟩ := h1 act ha
  have key : garlicTag out = some (c.entry C.P act.s.send.id i).tag := by
    generalize (m.decrypt C v request).2 = n at *
    simp only [Mgr.encrypt, h2] at ho
    generalize hb : ([dataClove v' 0 d data] ++ (if act'.inAcks.isEmpty then [] else [Block.ack act'.inAcks])) ++ _ = bs at ho
    have hs : ∀ r x, act'.s.encrypt C v' bs = (.ok r, x) → garlicTag (prefixed r.2.2) = some (c.entry C.P act.s.send.id i).tag := by
      intro r x hx
      simp only [Sess.encrypt, h3] at hx
      have hnext : ∀ e t, act.s.send.next C.P = (some e, t) → e = c.entry C.P act.s.send.id i := by
        intro e t hn
        simp only [TagSet.next] at hn
        split at hn
        · cases hn
          simp only [Chain.entry, hc, hi]
        · cases hn
      cases hn : act.s.send.next C.P with
      | mk oe t =>
        cases oe with
        | none => rw [hn] at hx; simp only [invalid] at hx; split at hx <;> cases hx
        | some e =>
          have := hnext e t hn
          subst this
          rw [hn] at hx
          simp only at hx
          split at hx
          · cases hx
          · cases hx
          · split at hx
            · cases hx
            · cases hx
              exact tag_of_sealed ..
    split at ho
    · cases ho
    · cases ho
    · cases ho
    · rename_i hx
      cases ho
      exact hs _ _ hx
  refine ⟨⟨act', h2, h3⟩, key, ?_⟩
  simp only [Mgr.decrypt, key, hr, Mgr.decryptNew, he]

/-- The session of `sampleMgr` and a request that begins with zeros; its peer knows no tags. -/
example : (sampleMgr sampleCfg).active.get [9] ≠ none ∧ garlicTag (List.replicate 100 0) = some 0 ∧
    (match ((sampleMgr sampleCfg).decrypt sampleCfg askDraw (List.replicate 100 0)).2.encrypt sampleCfg askDraw [9] [1] with
      | (.ok out, _) => (match (KeyCtx.new countPrims [7]).accept countPrims sampleCfg.E out with | .error _ => true | _ => false)
      | _ => false) = true := by decide +kernel

/-! ## C121: the peer gets the newest lease set -/

theorem setPut_mem (l : List (Nat × Nat)) (x : Nat × Nat) : (setPut l x).contains x = true := by
  simp only [setPut]
  split
  · assumption
  · simp

/-- C121 in part: after a new lease set was registered, every message of an established session carries it. -/
theorem C121_bundled_partial {C : Cfg} (v : Draw) {m : Mgr} {d : Bytes} {a : Active} (ha : m.active.get d = some a) (ls data : Bytes) :
    ∃ a', (m.registerLeaseSet ls).active.get d = some a' ∧ a'.s = a.s ∧ a'.leaseSet = some ls ∧
    ∀ out, ((m.registerLeaseSet ls).encrypt C v d data).1 = .ok out → ∃ bs i j x,
      storeClove v 1 m.id ls ∈ bs ∧ .ackRequest ∈ bs ∧ (a.s.encrypt C v bs).1 = .ok (i, j, x) ∧ out = prefixed x := by
  have hg : (m.registerLeaseSet ls).active.get d = some { a with leaseSet := some ls } := by
    simp only [Mgr.registerLeaseSet, Assoc.get, List.find?_map, Option.map_map] at ha ⊢
    obtain ⟨x, hx, rfl⟩ := Option.map_eq_some_iff.mp ha
    rw [show ((fun x : Bytes × Active => decide (x.1 = d)) ∘ fun (y : Bytes × Active) => (y.1, { y.2 with leaseSet := some ls })) = (fun x => decide (x.1 = d)) from rfl]
    rw [hx]; rfl
  refine ⟨_, hg, rfl, rfl, fun out ho => ?_⟩
  simp only [Mgr.encrypt, hg] at ho
  generalize hbs : ([dataClove v 0 d data] ++ (if a.inAcks.isEmpty then [] else [Block.ack a.inAcks])) ++ [storeClove v 1 (m.registerLeaseSet ls).id ls, .ackRequest] = bs at ho
  refine ⟨bs, ?_⟩
  split at ho
  · cases ho
  · cases ho
  · cases ho
  · rename_i i j x s hx
    cases ho
    refine ⟨i, j, x, ?_, ?_, by rw [hx], rfl⟩
    · rw [← hbs]; simp [Mgr.registerLeaseSet]
    · rw [← hbs]; simp

/-- C121 does not hold: an acknowledgment of an older lease set that arrives after a newer one was registered makes the newer one be forgotten:
it is neither published nor sent with any message. (`x` identifies a message that carried the older one.) -/
theorem C121_older_ack_violated {C : Cfg} (v' : Draw) {m : Mgr} {d ls : Bytes} {a : Active} {x : Nat × Nat} {acks : List (Nat × Nat)}
    (ha : (m.registerLeaseSet ls).active.get d = some a) (hx : x ∈ a.outAcks) (hk : x ∈ acks) (tag : Nat × Nat) :
    ∃ m', Mgr.blocks d tag [.ack acks] (m.registerLeaseSet ls) = ([], false, m') ∧ m'.leaseSet = ls ∧
      m'.publish C v' d = (.ok none, m') ∧
      ∃ a', m'.active.get d = some a' ∧ a'.leaseSet = none ∧
        ∀ data out, (m'.encrypt C v' d data).1 = .ok out → ∃ r, (a'.s.encrypt C v' ([dataClove v' 0 d data] ++ (if a.inAcks.isEmpty then [] else [.ack a.inAcks]))).1 = .ok r ∧ out = prefixed r.2.2 := by
  have hany : (acks.any fun x => a.outAcks.contains x) = true := by
    rw [List.any_eq_true]; exact ⟨x, hk, by simpa using hx⟩
  simp only [Mgr.blocks, ha, hany, if_true]
  refine ⟨_, rfl, rfl, ?_, _, Assoc.get_put .., rfl, ?_⟩
  · simp [Mgr.publish, Assoc.get_put]
  · intro data out ho
    simp only [Mgr.encrypt, Assoc.get_put, List.append_nil] at ho
    split at ho
    · cases ho
    · cases ho
    · cases ho
    · rename_i hx
      cases ho
      exact ⟨_, by rw [hx], rfl⟩

/-- A session that sent its lease set with message (0, 0), which is acknowledged after another was registered. -/
example : ((((sampleMgr sampleCfg).registerLeaseSet [5]).encrypt sampleCfg askDraw [9] [1]).2.registerLeaseSet [6]).active.get [9] ≠ none ∧
    (match ((((sampleMgr sampleCfg).registerLeaseSet [5]).encrypt sampleCfg askDraw [9] [1]).2.registerLeaseSet [6]).active.get [9] with
      | some a => decide ((0, 0) ∈ a.outAcks)
      | none => false) = true := by decide +kernel

/-! ## C122: sessions in use are kept -/

theorem maintainAll_get (now : Duration) (d : Bytes) (l : Assoc Active) : ∀ t : TagMap, ((maintainAll now l t).1.get d).isSome = (l.get d).isSome := by
  induction l with
  | nil => intro t; rfl
  | cons x l ih =>
    intro t
    obtain ⟨k, a⟩ := x
    simp only [maintainAll]
    have h := ih (a.s.maintain now t).2
    simp only [Assoc.get, List.find?_cons] at h ⊢
    by_cases e : k = d
    · simp [e]
    · simpa [e] using h

/-- C122 in part: maintenance keeps a session in which something was received in the last ten minutes, and one that sent its lease set in the last
eight. -/
theorem C122_kept_partial {m : Mgr} {d : Bytes} {a : Active} {now : Duration} (ha : m.active.get d = some a)
    (h : now ≤ a.lastRecv + 10 * 60 * 1000000000 ∨ now ≤ a.lastSent + 8 * 60 * 1000000000) : ((m.maintain now).active.get d).isSome = true := by
  simp only [Mgr.maintain]
  rw [maintainAll_get]
  have hidle : a.idle now = false := by
    simp only [Active.idle, receiveTimeout, sendTimeout, Bool.and_eq_false_iff, decide_eq_false_iff_not]
    rcases h with h | h
    · exact .inl (decide_eq_false (Nat.not_lt.mpr h))
    · exact .inr (decide_eq_false (Nat.not_lt.mpr h))
  simp only [Assoc.get, Option.isSome_map, List.find?_isSome, List.mem_filter] at ha ⊢
  obtain ⟨x, hx, rfl⟩ := Option.map_eq_some_iff.mp ha
  exact ⟨x, ⟨List.mem_of_find?_eq_some hx, by simp [hidle]⟩, by simpa using List.find?_some hx⟩

/-- The state after sending messages, at the times in the draws, if all could be sent. -/
def sendAll (C : Cfg) (d : Bytes) : Mgr → List (Draw × Bytes) → Option Mgr
  | m, [] => some m
  | m, x :: l => match m.encrypt C x.1 d x.2 with
    | (.ok _, m) => sendAll C d m l
    | _ => none

/-- C122 does not hold: a session whose peer has the lease set and that is used for sending only is dropped ten minutes after the last message was
received, however much is sent meanwhile; no event tells that the session ended. -/
theorem C122_sending_violated {C : Cfg} {d : Bytes} (l : List (Draw × Bytes)) : ∀ {m m' : Mgr} {a : Active}, m.active.get d = some a →
    (∀ x ∈ m.active, x.1 = d → x.2 = a) → a.leaseSet = none → sendAll C d m l = some m' → ∀ {now : Duration},
    a.lastRecv + 10 * 60 * 1000000000 < now → a.lastSent + 8 * 60 * 1000000000 < now →
    (m'.maintain now).active.get d = none ∧ (m'.maintain now).terminated = m.terminated := by
  induction l with
  | nil =>
    intro m m' a ha hu _ hs now h1 h2
    cases hs
    refine ⟨?_, rfl⟩
    simp only [Mgr.maintain]
    rw [← Option.not_isSome_iff_eq_none, maintainAll_get, Assoc.get_filter]
    · simp
    · intro x hx he
      rw [hu x hx he]
      simp [Active.idle, receiveTimeout, sendTimeout, h1, h2]
  | cons x l ih =>
    intro m m' a ha hu hl hs now h1 h2
    simp only [sendAll] at hs
    split at hs
    · rename_i out m1 he
      simp only [Mgr.encrypt, ha, hl] at he
      split at he
      · cases he
      · cases he
      · cases he
      · rename_i s _
        simp only [Option.isNone_none, if_true] at he
        cases he
        refine ih (a := { a with inAcks := [], s := s }) (m := { m with active := _ }) ?_ ?_ hl hs h1 h2
        · simp only [Assoc.get_put, hl]
        · intro y hy he
          rcases List.mem_append.mp hy with hy | hy
          · exact absurd he (by simpa using (List.mem_filter.mp hy).2)
          · rw [List.mem_singleton.mp hy, hl]
    · cases hs

/-- Two messages sent after nine minutes do not keep the session of the sample. -/
example : ((sendAll sampleCfg [9] (sampleMgr sampleCfg) [({ askDraw with now := 540000000000 }, [1]), ({ askDraw with now := 600000000000 }, [2])]).map
    fun m => ((m.maintain (600000000001 : Nat)).active.get [9]).isNone) = some true := by decide +kernel

/-! ## C123: replies to a request -/

/-- The tags of the replies a destination gives to a request are the ones of `replyTag`, in order. -/
theorem C123_tags_partial {C : Cfg} (hT : C.T.nsr ≤ 65535) (k : Known) (st sk esk : Bytes) :
    ({ state := st, sk, esk, ck := k.ck } : Outbound).replyTags C.P C.T = some ((List.range' 0 C.T.nsr).map (entryAt C.P k.ck (hkdf C.P k.ck [] lblReplyTags).1)) := by
  simp only [Outbound.replyTags, replySet_spec]
  rw [nexts_after _ _ _ _ _ (by omega)]
  rfl

/-- C123 does not hold: the requester watches for `T.nsr` replies (sixteen), so any reply after that to the same request is refused, if no two
tags are equal. (`n` is the requester; the tags it watches for are those of its requests and none of them is the tag of the reply.) -/
theorem C123_later_reply_violated {C : Cfg} (hT : C.T.nsr ≤ 65535) (v : Draw) {n : Mgr} (k : Known) {j : Nat} (hj : C.T.nsr ≤ j) (hl : j < 65535)
    (hd : Distinct C.P (Chain.new C.P k.ck (hkdf C.P k.ck [] lblReplyTags).1)) {st sk esk : Bytes} {es : List Entry}
    (he : ({ state := st, sk, esk, ck := k.ck } : Outbound).replyTags C.P C.T = some es)
    (hn : ∀ t, n.tags.map t ≠ none → t ∈ es.map (·.tag)) {msg : Bytes} (hm : garlicTag msg = some (replyTag C.P k j)) {e : Err}
    (hacc : n.ctx.accept C.P C.E msg = .error e) : n.decrypt C v msg = (.error e, n) := by
  have hnone : n.tags.map (replyTag C.P k j) = none := by
    by_cases h : n.tags.map (replyTag C.P k j) = none
    · exact h
    exfalso
    have h1 := hn _ h
    rw [C123_tags_partial hT] at he
    cases he
    simp only [List.map_map, List.mem_map, List.mem_range'_1, Function.comp_apply] at h1
    obtain ⟨i, hi, h2⟩ := h1
    have := hd i (by omega) j hl h2
    omega
  simp only [Mgr.decrypt, hm, hnone, Mgr.decryptNew, hacc]

/-- The fourth reply, if three are watched for. -/
example := C123_later_reply_violated (C := sampleCfg) (by decide) askDraw (n := { Mgr.new sampleCfg [1] [2] [3] with
      tags := TagMap.new.inserts [9] (((List.range' 0 3).map (entryAt countPrims [1] (hkdf countPrims [1] [] lblReplyTags).1)).map (·.tag)) })
    { ck := [1], h := [] } (j := 3) (by decide) (by decide) (count_distinct _ 7 (by decide) (by decide +kernel)) (st := []) (sk := []) (esk := [])
    (C123_tags_partial (by decide) _ _ _ _)
    (by
      intro t ht
      simp only [inserts_map, TagMap.new] at ht
      split at ht
      · assumption
      · exact absurd rfl ht)
    (msg := be 4 60 ++ le 8 (replyTag countPrims { ck := [1], h := [] } 3) ++ List.replicate 60 0) (by decide +kernel) (e := .malformed) (by rfl)

end Emissary.Ecies
