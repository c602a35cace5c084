import Verif.Props.StreamJourney
import Verif.Props.SessionRatchet
/-!
# Messages from destination to destination over any number of ratchets (C251, C291)
-/
namespace Emissary.Journey
open Emissary Emissary.I2np Emissary.Tunnel Emissary.Hop

/-! ## Specification -/

/-- A conversation of `m` and `n`, every turn on its own road: everything is sent, `R` holds of what is sent (road, randomness and manager of the one who listens, message),
and then it goes on. -/
def Conversation (R : Road → Ecies.Draw → Ecies.Mgr → Bytes → Bytes → Prop) (C : Ecies.Cfg) (idm idn : Bytes) : Ecies.Mgr → Ecies.Mgr → List (Ecies.Turn × Road) → Prop
  | _, _, [] => True
  | m, n, (t, r) :: ts =>
    if t.mine then ∃ out m', m.encrypt C t.v idn t.msg = (.ok out, m') ∧ (out.length ≤ 63692 → R r t.u n out t.msg) ∧ Conversation R C idm idn m' (n.decrypt C t.u out).2 ts
    else ∃ out n', n.encrypt C t.v idm t.msg = (.ok out, n') ∧ (out.length ≤ 63692 → R r t.u m out t.msg) ∧ Conversation R C idm idn (m.decrypt C t.u out).2 n' ts

/-! ## What is sent is never short -/

theorem seal_len {P : Ssu2.Prims} (hP : P.Lawful) (k : Bytes) (n : Nat) (ad p : Bytes) : 16 ≤ (P.seal k n ad p).length := by
  simp only [Ssu2.Crypto.seal, hP.crypto.aead.len]
  omega

theorem entry_len {P : Ssu2.Prims} (hP : P.Lawful) (e : Ratchet.Entry) (p : Bytes) : 9 ≤ (Ecies.Entry.seal P e p).length := by
  have := seal_len hP e.key e.index (Ntcp2.le 8 e.tag) p
  simp only [Ecies.Entry.seal, List.length_append]
  omega

theorem open_len {C : Ecies.Cfg} (hP : C.P.Lawful) {v : Ecies.Draw} {c : Ecies.KeyCtx} {own remote pk ls msg x : Bytes} {o : Ecies.Outbound}
    (h : Ecies.openSession C v c own remote pk ls msg = some (o, x)) : 9 ≤ x.length := by
  unfold Ecies.openSession at h
  unbind h with plain e
  simp only [Option.pure_def, Option.some.injEq] at h
  simp only [Ecies.KeyCtx.newSession, Prod.mk.injEq] at h
  rw [← h.2]
  simp only [List.length_append]
  have := seal_len hP
  grind

theorem reply_len {C : Ecies.Cfg} (hP : C.P.Lawful) {i i' : Ecies.Inbound} {esk p x : Bytes} {es : List Ratchet.Entry}
    (h : i.reply C.P C.E C.T C.chk esk p = (.ok (x, es), i')) : 9 ≤ x.length := by
  have key : ∀ {ck st re rs tag r}, Ecies.makeReply C.P C.E C.T ck st re rs esk tag p = some r → 9 ≤ r.1.length := by
    intro ck st re rs tag r h
    unfold Ecies.makeReply at h
    simp only at h
    unbind h with y e
    simp only [Option.pure_def, Option.some.injEq] at h
    rw [← h]
    simp only [List.length_append]
    have := seal_len hP
    grind
  unfold Ecies.Inbound.reply at h
  split at h
  · split at h
    · simp at h
    · split at h
      · simp at h
      · rename_i hk; simp only [Prod.mk.injEq, Ratchet.Out.ok.injEq] at h; rw [← h.1.1]; exact key hk
  · split at h
    · simp at h
    · split at h
      · simp at h
      · rename_i hk; simp only [Prod.mk.injEq, Ratchet.Out.ok.injEq] at h; rw [← h.1.1]; exact key hk
  · cases hc : C.chk <;> simp [Ratchet.invalid, hc] at h

theorem advanceOut_len {C : Ecies.Cfg} (hP : C.P.Lawful) {v : Ecies.Draw} {c : Ecies.KeyCtx} {own remote ls msg : Bytes} {tags tags' : Ecies.TagMap} {st st' : Ecies.PState} :
    (∀ x, st.advanceOut C v c own remote ls msg tags = (.ok (.send x), st', tags') → 9 ≤ x.length) ∧
    (∀ x s i j, st.advanceOut C v c own remote ls msg tags = (.ok (.create x s i j), st', tags') → 9 ≤ x.length) := by
  refine ⟨fun x h => ?_, fun x s i j h => ?_⟩
  · unfold Ecies.PState.advanceOut at h
    repeat' split at h
    all_goals first
      | (simp only [Prod.mk.injEq, Ratchet.Out.ok.injEq, Ecies.PEvent.send.injEq, reduceCtorEq, false_and] at h; done)
      | (simp only [Prod.mk.injEq, Ratchet.Out.ok.injEq, Ecies.PEvent.send.injEq] at h
         rw [← h.1]
         first
           | exact reply_len hP (by assumption)
           | exact open_len hP (by assumption))
      | (cases hc : C.chk <;> simp [Ratchet.invalid, hc] at h)
  · unfold Ecies.PState.advanceOut at h
    repeat' split at h
    all_goals first
      | (simp only [Prod.mk.injEq, Ratchet.Out.ok.injEq, reduceCtorEq, false_and] at h; done)
      | (simp only [Prod.mk.injEq, Ratchet.Out.ok.injEq, Ecies.PEvent.create.injEq] at h
         rw [← h.1.1]
         exact entry_len hP _ _)
      | (cases hc : C.chk <;> simp [Ratchet.invalid, hc] at h)

theorem sess_len {C : Ecies.Cfg} (hP : C.P.Lawful) {v : Ecies.Draw} {bs : List Garlic.Block} {s s' : Ecies.Sess} {i j : Nat} {x : Bytes}
    (h : s.encrypt C v bs = (.ok (i, j, x), s')) : 9 ≤ x.length := by
  unfold Ecies.Sess.encrypt at h
  split at h
  · cases hc : C.chk <;> simp [Ratchet.invalid, hc] at h
  · split at h
    · simp at h
    · simp at h
    · simp only at h
      split at h
      · simp at h
      · simp only [Prod.mk.injEq, Ratchet.Out.ok.injEq] at h
        rw [← h.1.2.2]
        exact entry_len hP _ _

/-- Everything the session manager makes is longer than the twelve bytes that a message must have. -/
theorem encrypt_len {C : Ecies.Cfg} (hP : C.P.Lawful) {v : Ecies.Draw} {m m' : Ecies.Mgr} {d msg out : Bytes} (h : m.encrypt C v d msg = (.ok out, m')) : 12 < out.length := by
  have hp : ∀ {x : Bytes}, 9 ≤ x.length → 12 < (Ecies.prefixed x).length := by
    intro x hx
    simp only [Ecies.prefixed, List.length_append, be_length]
    omega
  unfold Ecies.Mgr.encrypt at h
  split at h
  · simp only at h
    split at h
    · simp at h
    · simp at h
    · simp at h
    · rename_i e
      simp only [Prod.mk.injEq, Ratchet.Out.ok.injEq] at h
      rw [← h.1]
      exact hp (sess_len hP e)
  · split at h
    · split at h
      · simp at h
      · simp at h
      · rename_i e
        simp only [Prod.mk.injEq, Ratchet.Out.ok.injEq] at h
        rw [← h.1]
        exact hp ((advanceOut_len hP).1 _ e)
      · rename_i e
        simp only [Prod.mk.injEq, Ratchet.Out.ok.injEq] at h
        rw [← h.1]
        exact hp ((advanceOut_len hP).2 _ _ _ _ e)
      · simp at h
    · split at h
      · cases hc : C.chk <;> simp [Ratchet.invalid, hc] at h
      · split at h
        · simp at h
        · rename_i e
          split at h
          · simp at h
          · simp only [Prod.mk.injEq, Ratchet.Out.ok.injEq] at h
            rw [← h.1]
            exact hp (open_len hP e)

/-! ## C251 and C291 over any number of ratchets -/

theorem conversation_of {N : Net} (hN : N.Ok) {C : Ecies.Cfg} (hP : C.P.Lawful) {idm idn : Bytes} (l : List (Ecies.Turn × Road)) : ∀ {m n : Ecies.Mgr},
    (∀ x ∈ l, x.2.Ok ∧ x.1.msg ≠ []) →
    (Ecies.converse C idm idn m n (l.map (·.1))).1 = (l.map (·.1)).map (fun t => .ok [Ecies.received (if t.mine then idn else idm) (t.v, t.msg)]) →
    Conversation (fun r v n out msg => Reaches N.A N.sha N.chk r.out r.inb r.send r.tunnel r.router r.id C v n out msg) C idm idn m n l := by
  induction l with
  | nil => intros; trivial
  | cons x l ih =>
    obtain ⟨t, r⟩ := x
    intro m n hl h
    obtain ⟨hr, hmsg⟩ := hl (t, r) List.mem_cons_self
    have hl' := fun x hx => hl x (List.mem_cons_of_mem _ hx)
    have one : ∀ {s k : Ecies.Mgr} {d : Bytes}, (Ecies.speak C s k d t).1 = .ok [Ecies.received d (t.v, t.msg)] →
        ∃ out s', s.encrypt C t.v d t.msg = (.ok out, s') ∧ (out.length ≤ 63692 → Reaches N.A N.sha N.chk r.out r.inb r.send r.tunnel r.router r.id C t.u k out t.msg) ∧
          (Ecies.speak C s k d t).2 = (s', (k.decrypt C t.u out).2) := by
      intro s k d h
      unfold Ecies.speak at h ⊢
      split at h
      · rename_i out s' e
        have h : (k.decrypt C t.u out).1 = .ok [Ecies.received d (t.v, t.msg)] := h
        rw [e]
        refine ⟨out, s', rfl, fun hlen => reaches_of (n' := (k.decrypt C t.u out).2) hN hr (by rw [← h]) ?_ (encrypt_len hP e) hlen, rfl⟩
        simp only [Ecies.received, List.filterMap_cons, List.filterMap_nil, dataOf_data _ _ _ _ hmsg]
      · cases h
      · cases h
    simp only [List.map_cons] at h
    unfold Ecies.converse at h
    unfold Conversation
    cases hm : t.mine with
    | true =>
      simp only [hm, if_true, List.cons.injEq] at h ⊢
      obtain ⟨out, s', e1, e2, e3⟩ := one h.1
      rw [e3] at h
      exact ⟨out, s', e1, e2, ih hl' h.2⟩
    | false =>
      simp only [hm, if_false, Bool.false_eq_true, List.cons.injEq] at h ⊢
      obtain ⟨out, s', e1, e2, e3⟩ := one h.1
      rw [e3] at h
      exact ⟨out, s', e1, e2, ih hl' h.2⟩

theorem Conversation.mono {R S : Road → Ecies.Draw → Ecies.Mgr → Bytes → Bytes → Prop} {C : Ecies.Cfg} {idm idn : Bytes} (l : List (Ecies.Turn × Road)) : ∀ {m n : Ecies.Mgr},
    (∀ r v n out, ∀ x ∈ l, R r v n out x.1.msg → S r v n out x.1.msg) → Conversation R C idm idn m n l → Conversation S C idm idn m n l := by
  induction l with
  | nil => intros; trivial
  | cons x l ih =>
    obtain ⟨t, r⟩ := x
    intro m n hl h
    have hl' := fun r v n out x hx => hl r v n out x (List.mem_cons_of_mem _ hx)
    unfold Conversation at h ⊢
    cases hm : t.mine with
    | true =>
      simp only [hm, if_true] at h ⊢
      obtain ⟨out, s', e1, e2, e3⟩ := h
      exact ⟨out, s', e1, fun hlen => hl _ _ _ _ (t, r) List.mem_cons_self (e2 hlen), ih hl' e3⟩
    | false =>
      simp only [hm, if_false, Bool.false_eq_true] at h ⊢
      obtain ⟨out, s', e1, e2, e3⟩ := h
      exact ⟨out, s', e1, fun hlen => hl _ _ _ _ (t, r) List.mem_cons_self (e2 hlen), ih hl' e3⟩

/-- **C251**, in part (the conditions of C271): in a conversation of two destinations with a session, over any number of ratchets, every message, through any tunnels, is what
the other destination reads from what comes out of them. -/
theorem C251_ratchets_partial {N : Net} (hN : N.Ok) {C : Ecies.Cfg} (hP : C.P.Lawful) {b : Nat} (hb : b ≤ 20000) (hR : b ≤ C.T.recv) (hR' : C.T.recv ≤ 65535) {idm idn : Bytes}
    {m n : Ecies.Mgr} {c c' : Ratchet.Chain} {i j : Nat} (h1 : Ecies.Direction C b m n idm idn c i) (h2 : Ecies.Direction C b n m idn idm c' j)
    (hd : Ecies.Distinct C.P c ∧ Ecies.Distinct C.P c') (hk : Ecies.TagMap.Sound m.tags ∧ Ecies.TagMap.Sound n.tags) (l : List (Ecies.Turn × Road))
    (hl : ∀ x ∈ l, x.2.Ok ∧ x.1.msg ≠ [] ∧ Ecies.Fits (if x.1.mine then idn else idm) (x.1.v, x.1.msg)) (hp : Ecies.Polite b true 0 (l.map (·.1)))
    (hc : i + Ecies.said true (l.map (·.1)) ≤ 20001 * 65535 ∧ j + Ecies.said false (l.map (·.1)) ≤ 20001 * 65535)
    (hn : (Ecies.converse C idm idn m n (l.map (·.1))).2.1.tags.log.Nodup ∧ (Ecies.converse C idm idn m n (l.map (·.1))).2.2.tags.log.Nodup) :
    Conversation (fun r v n out msg => Reaches N.A N.sha N.chk r.out r.inb r.send r.tunnel r.router r.id C v n out msg) C idm idn m n l :=
  conversation_of hN hP l (fun x hx => ⟨(hl x hx).1, (hl x hx).2.1⟩) (Ecies.C271_ratchets_partial hP hb hR hR' h1 h2 hd hk _ hp (by
    intro t ht
    obtain ⟨x, hx, rfl⟩ := List.mem_map.mp ht
    exact (hl x hx).2.2) hc hn)

/-- **C291**, in part: the same for the packets of streams, in both directions: each gets to the stream manager of the other client as it was sent, with its ports. -/
theorem C291_ratchets_partial {N : Net} (hN : N.Ok) {C : Ecies.Cfg} (hP : C.P.Lawful) {b : Nat} (hb : b ≤ 20000) (hR : b ≤ C.T.recv) (hR' : C.T.recv ≤ 65535) {idm idn : Bytes}
    {m n : Ecies.Mgr} {c c' : Ratchet.Chain} {i j : Nat} (h1 : Ecies.Direction C b m n idm idn c i) (h2 : Ecies.Direction C b n m idn idm c' j)
    (hd : Ecies.Distinct C.P c ∧ Ecies.Distinct C.P c') (hk : Ecies.TagMap.Sound m.tags ∧ Ecies.TagMap.Sound n.tags) {G : Datagram.Gzip} (hG : G.Ok) (E : Prim.Env)
    (b64 : Bytes → Bytes) (l : List (Ecies.Turn × Road))
    (hl : ∀ x ∈ l, x.2.Ok ∧ Ecies.Fits (if x.1.mine then idn else idm) (x.1.v, x.1.msg))
    (hw : ∀ x ∈ l, ∃ src dst p, src < 65536 ∧ dst < 65536 ∧ Datagram.build G src dst .streaming p = some x.1.msg) (hp : Ecies.Polite b true 0 (l.map (·.1)))
    (hc : i + Ecies.said true (l.map (·.1)) ≤ 20001 * 65535 ∧ j + Ecies.said false (l.map (·.1)) ≤ 20001 * 65535)
    (hn : (Ecies.converse C idm idn m n (l.map (·.1))).2.1.tags.log.Nodup ∧ (Ecies.converse C idm idn m n (l.map (·.1))).2.2.tags.log.Nodup) :
    Conversation (fun r v n out msg => ∀ room d src dst p, src < 65536 → dst < 65536 → Datagram.build G src dst .streaming p = some msg →
      Carries N r C v n out E G b64 room d (src, dst) p) C idm idn m n l := by
  refine Conversation.mono l ?_ (C251_ratchets_partial hN hP hb hR hR' h1 h2 hd hk l (fun x hx => ?_) hp hc hn)
  · intro r v n out x hx h room d src dst p hs hd hb
    exact carries_of E hG b64 room d ⟨hs, hd⟩ hb h
  · obtain ⟨src, dst, p, q1, q2, q3⟩ := hw x hx
    exact ⟨(hl x hx).1, build_ne hG q1 q2 q3, (hl x hx).2⟩

/-- **C252**, in part: the same for datagrams, of any clients of the two destinations, in both directions: each comes to the port of the other client as it was sent. -/
theorem C252_ratchets_partial {N : Net} (hN : N.Ok) {C : Ecies.Cfg} (hP : C.P.Lawful) {b : Nat} (hb : b ≤ 20000) (hR : b ≤ C.T.recv) (hR' : C.T.recv ≤ 65535) {idm idn : Bytes}
    {m n : Ecies.Mgr} {c c' : Ratchet.Chain} {i j : Nat} (h1 : Ecies.Direction C b m n idm idn c i) (h2 : Ecies.Direction C b n m idn idm c' j)
    (hd : Ecies.Distinct C.P c ∧ Ecies.Distinct C.P c') (hk : Ecies.TagMap.Sound m.tags ∧ Ecies.TagMap.Sound n.tags) {G : Datagram.Gzip} (hG : G.Ok) (E : Prim.Env)
    (b64 : Bytes → Bytes) (l : List (Ecies.Turn × Road))
    (hl : ∀ x ∈ l, x.2.Ok ∧ Ecies.Fits (if x.1.mine then idn else idm) (x.1.v, x.1.msg))
    (hw : ∀ x ∈ l, ∃ (d : Datagram.Mgr) (data : Bytes), d.send G data = some x.1.msg) (hp : Ecies.Polite b true 0 (l.map (·.1)))
    (hc : i + Ecies.said true (l.map (·.1)) ≤ 20001 * 65535 ∧ j + Ecies.said false (l.map (·.1)) ≤ 20001 * 65535)
    (hn : (Ecies.converse C idm idn m n (l.map (·.1))).2.1.tags.log.Nodup ∧ (Ecies.converse C idm idn m n (l.map (·.1))).2.2.tags.log.Nodup) :
    Conversation (fun r v n out msg => ∀ (dA dB : Datagram.Mgr) (key padding data port : Bytes) (p : Nat), Client E dA key padding → dA.send G data = some msg →
      dB.port = some port → Prim.parseUInt 65535 port = some p →
      Gets N.A N.sha N.chk r.out r.inb r.send r.tunnel r.router r.id C v n out E G b64 dB p (toClient b64 dA data)) C idm idn m n l := by
  refine Conversation.mono l ?_ (C251_ratchets_partial hN hP hb hR hR' h1 h2 hd hk l (fun x hx => ?_) hp hc hn)
  · intro r v n out x hx h dA dB key padding data port p hc hs hport hpn
    exact gets_of hG b64 hc hs hport hpn h
  · obtain ⟨d, data, q⟩ := hw x hx
    exact ⟨(hl x hx).1, send_ne hG q, (hl x hx).2⟩

end Emissary.Journey
