import Verif.Props.SessionWindow
/-!
# What goes wrong with garlic sessions, and what does not
-/
namespace Emissary.Ecies
open Emissary Emissary.I2np Emissary.Garlic
open Emissary.Ssu2 (Prims)
open Emissary.Ntcp2 (unle le)
open Emissary.Ratchet

/-! ## C116: replayed requests -/

theorem blocks_cloves (d : Bytes) (tag : Nat × Nat) (bs : List Block) : ∀ m : Mgr, (Mgr.blocks d tag bs m).1 = clovesOf bs := by
  induction bs with
  | nil => intro m; rfl
  | cons b bs ih =>
    intro m
    cases b with
    | clove ty id ex dl bd => simp only [Mgr.blocks, ih]; rfl
    | ackRequest => simp only [Mgr.blocks]; split <;> (simp only [ih]; rfl)
    | ack acks => simp only [Mgr.blocks]; split <;> (simp only [ih]; rfl)
    | _ => simp only [Mgr.blocks, ih]; rfl

/-- Whether the sender has an active session matters for the assertion only. -/
theorem blocks_has (d : Bytes) (tag : Nat × Nat) (bs : List Block) : ∀ m : Mgr, ((Mgr.blocks d tag bs m).2.2.active.get d).isSome = (m.active.get d).isSome := by
  induction bs with
  | nil => intro m; rfl
  | cons b bs ih =>
    intro m
    cases b with
    | clove ty id ex dl bd => simp only [Mgr.blocks, ih]
    | ackRequest =>
      simp only [Mgr.blocks]
      split
      · rename_i h; rw [ih, Assoc.get_put, h]; rfl
      · simp only [ih]
    | ack acks =>
      simp only [Mgr.blocks]
      split
      · rename_i h; rw [ih, Assoc.get_put, h]; rfl
      · simp only [ih]
    | _ => simp only [Mgr.blocks, ih]

/-- A block that acknowledges or asks for it. -/
def isAck : Block → Bool
  | .ack _ => true
  | .ackRequest => true
  | _ => false

/-- The assertion fails exactly if there is something to acknowledge and no active session. -/
theorem blocks_flag (d : Bytes) (tag : Nat × Nat) (bs : List Block) : ∀ m : Mgr,
    (Mgr.blocks d tag bs m).2.1 = ((m.active.get d).isNone && bs.any isAck) := by
  induction bs with
  | nil => intro m; simp [Mgr.blocks]
  | cons b bs ih =>
    intro m
    cases b with
    | clove ty id ex dl bd => simp only [Mgr.blocks, ih, List.any_cons, isAck, Bool.false_or]
    | ackRequest =>
      simp only [Mgr.blocks]
      split
      · rename_i h; rw [ih, Assoc.get_put, h]; simp [isAck]
      · rename_i h; simp [h, isAck]
    | ack acks =>
      simp only [Mgr.blocks]
      split
      · rename_i h; rw [ih, Assoc.get_put, h]; simp [isAck]
      · rename_i h; simp [h, isAck]
    | _ => simp only [Mgr.blocks, ih, List.any_cons, isAck, Bool.false_or]

theorem blocks_pending (d : Bytes) (tag : Nat × Nat) (bs : List Block) : ∀ m : Mgr, (Mgr.blocks d tag bs m).2.2.pending = m.pending := by
  induction bs with
  | nil => intro m; rfl
  | cons b bs ih =>
    intro m
    cases b with
    | ackRequest => simp only [Mgr.blocks]; split <;> simp only [ih]
    | ack acks => simp only [Mgr.blocks]; split <;> simp only [ih]
    | _ => simp only [Mgr.blocks, ih]

theorem finish_pending (C : Cfg) (m : Mgr) (d : Bytes) (tag : Nat × Nat) (plain : Bytes) : (m.finish C d tag plain).2.pending = m.pending := by
  simp only [Mgr.finish]
  split
  · rfl
  · split <;> exact blocks_pending ..

theorem blocks_sess (d d' : Bytes) (tag : Nat × Nat) (bs : List Block) : ∀ (m : Mgr) (a : Active), m.active.get d = some a →
    ∃ a', (Mgr.blocks d' tag bs m).2.2.active.get d = some a' ∧ a'.s = a.s := by
  induction bs with
  | nil => intro m a h; exact ⟨a, h, rfl⟩
  | cons b bs ih =>
    intro m a h
    have put : ∀ (x y : Active), m.active.get d' = some x → y.s = x.s → ∃ a', (m.active.put d' y).get d = some a' ∧ a'.s = a.s := by
      intro x y hx hy
      by_cases e : d = d'
      · subst e; rw [h] at hx; cases hx; exact ⟨y, Assoc.get_put .., hy⟩
      · exact ⟨a, by rw [Assoc.get_put_ne _ _ e]; exact h, rfl⟩
    cases b with
    | ackRequest =>
      simp only [Mgr.blocks]
      split
      · rename_i x hx
        obtain ⟨a', h1, h2⟩ := put x _ hx (rfl : ({ x with inAcks := setPut x.inAcks tag } : Active).s = x.s)
        obtain ⟨a'', h3, h4⟩ := ih { m with active := m.active.put d' { x with inAcks := setPut x.inAcks tag } } a' h1
        exact ⟨a'', h3, h4.trans h2⟩
      · exact ih m a h
    | ack acks =>
      simp only [Mgr.blocks]
      split
      · rename_i x hx
        generalize hy : (if (acks.any fun y => x.outAcks.contains y) = true then _ else x) = y
        obtain ⟨a', h1, h2⟩ := put x y hx (by rw [← hy]; split <;> rfl)
        obtain ⟨a'', h3, h4⟩ := ih { m with active := m.active.put d' y } a' h1
        exact ⟨a'', h3, h4.trans h2⟩
      · exact ih m a h
    | _ => exact ih m a h

theorem finish_active (C : Cfg) {m : Mgr} {d : Bytes} {a : Active} (d' : Bytes) (tag : Nat × Nat) (plain : Bytes) (h : m.active.get d = some a) :
    ∃ a', (m.finish C d' tag plain).2.active.get d = some a' ∧ a'.s = a.s := by
  simp only [Mgr.finish]
  split
  · exact ⟨a, h, rfl⟩
  · split <;> exact blocks_sess d d' tag _ m a h

theorem finish_ok {C : Cfg} {m : Mgr} {d : Bytes} {tag : Nat × Nat} {plain : Bytes} {cs : List Clove} {m' : Mgr}
    (h : m.finish C d tag plain = (.ok cs, m')) : ∃ bs, parse plain = some bs ∧ cs = clovesOf bs ∧ m' = (Mgr.blocks d tag bs m).2.2 ∧
      ((Mgr.blocks d tag bs m).2.1 && C.chk) = false := by
  simp only [Mgr.finish] at h
  split at h
  · cases h
  · rename_i bs hbs
    split at h
    · cases h
    · rename_i hf
      cases h
      exact ⟨bs, hbs, blocks_cloves .., rfl, by simpa using hf⟩

theorem decryptNew_ok {C : Cfg} {v : Draw} {m m1 : Mgr} {msg d plain : Bytes} (h : m.decryptNew C v msg = (.ok (d, plain), m1)) :
    m1.active = m.active ∧ m1.ctx = m.ctx ∧ m1.tags = m.tags ∧
    ∀ (m' : Mgr) (v' : Draw), m'.ctx = m.ctx → ∃ m2, m'.decryptNew C v' msg = (.ok (d, plain), m2) ∧ m2.active = m'.active ∧
      m2.pending = (match m'.pending.get d with
        | none => match m.ctx.accept C.P C.E msg with
          | .ok (i, _) => m'.pending.put d (Pending.inbound v' i)
          | .error _ => []
        | some _ => m'.pending) := by
  simp only [Mgr.decryptNew] at h
  split at h
  · cases h
  · rename_i i pl hacc
    split at h
    · cases h
    · rename_i bs hp
      split at h
      · cases h
      · rename_i body hb
        split at h
        · cases h
        · rename_i key d' hr
          split at h
          · cases h
          · rename_i hk
            cases h
            refine ⟨by split <;> rfl, by split <;> rfl, by split <;> rfl, fun m' v' hc => ?_⟩
            simp only [Mgr.decryptNew, hc, hacc, hp, hb, hr, hk, if_false]
            refine ⟨_, rfl, ?_, ?_⟩
            · split <;> rfl
            · cases m'.pending.get d <;> rfl

/-- C116 does not hold: a request for a session that was accepted is accepted again when it is replayed, and its contents are delivered
again. -/
theorem C116_replay_violated {C : Cfg} {v : Draw} {m m' : Mgr} {msg : Bytes} {cs : List Clove} {tag : Nat} (ht : garlicTag msg = some tag)
    (hu : m.tags.map tag = none) (h : m.decrypt C v msg = (.ok cs, m')) (v' : Draw) : ∃ m'', m'.decrypt C v' msg = (.ok cs, m'') := by
  have htags : m'.tags = m.tags := by
    have := decrypt_unknown_tags C v m msg ht hu
    rw [h] at this; exact this
  simp only [Mgr.decrypt, ht, hu] at h
  split at h
  · cases h
  · rename_i d plain m1 h1
    obtain ⟨ha, hc, _, hagain⟩ := decryptNew_ok h1
    obtain ⟨bs, hp, rfl, hm', hfl⟩ := finish_ok h
    have hc' : m'.ctx = m.ctx := by rw [hm', blocks_ctx, hc]
    obtain ⟨m2, h2, ha2, _⟩ := hagain m' v' hc'
    simp only [Mgr.decrypt, ht, htags, hu, h2, Mgr.finish, hp]
    have hhas : (m2.active.get d).isSome = (m1.active.get d).isSome := by
      rw [ha2, hm', blocks_has]
    have hfl2 : ((Mgr.blocks d (0, 0) bs m2).2.1 && C.chk) = false := by
      rw [blocks_flag] at hfl ⊢
      have : (m2.active.get d).isNone = (m1.active.get d).isNone := by
        rw [← Option.not_isSome, ← Option.not_isSome, hhas]
      rw [this]; exact hfl
    exact ⟨_, by rw [hfl2]; simp only [Bool.false_eq_true, if_false]; rw [blocks_cloves]⟩

/-- What a replay does not do: it neither replaces a session that is being set up with the sender nor touches an established one. -/
theorem C116_replay_keeps_partial {C : Cfg} (v : Draw) {m : Mgr} {msg : Bytes} {tag : Nat} (ht : garlicTag msg = some tag)
    (hu : m.tags.map tag = none) (d : Bytes) :
    (∀ p, m.pending.get d = some p → (m.decrypt C v msg).2.pending.get d = some p) ∧
    (m.decrypt C v msg).2.tags = m.tags ∧
    ∀ a, m.active.get d = some a → ∃ a', (m.decrypt C v msg).2.active.get d = some a' ∧ a'.s = a.s := by
  refine ⟨fun p hp => ?_, decrypt_unknown_tags C v m msg ht hu, fun a ha => ?_⟩
  · simp only [Mgr.decrypt, ht, hu]
    have h1 : (m.decryptNew C v msg).2.pending.get d = some p := by
      simp only [Mgr.decryptNew]
      repeat' split
      all_goals first
        | exact hp
        | skip
      rename_i d' _ _ _ hd'
      have hne : d ≠ d' := by rintro rfl; rw [hp] at hd'; cases hd'
      rw [Assoc.get_put_ne _ _ hne]; exact hp
    split <;> (rename_i h2; rw [h2] at h1)
    · exact h1
    · rw [finish_pending]; exact h1
  · simp only [Mgr.decrypt, ht, hu]
    have h1 : (m.decryptNew C v msg).2.active = m.active := by
      simp only [Mgr.decryptNew]
      repeat' split
      all_goals rfl
    split <;> (rename_i h2; rw [h2] at h1)
    · exact ⟨a, by rw [h1]; exact ha, rfl⟩
    · exact finish_active _ _ _ _ (by rw [h1]; exact ha)

/-- Two destinations. The first is named in every lease set. -/
def idA : Bytes := List.replicate 32 1
def idB : Bytes := List.replicate 32 9
def storeCfg : Cfg := { askCfg with readStore := fun _ => some (idA, idA) }

/-- The first asks for a session, and what it sends. -/
def asker : Mgr := (Mgr.new storeCfg idA [2] [3]).addRemote idB (samplePrims.pub [3])
def asked : Mgr := (asker.encrypt storeCfg askDraw idB [1, 2]).2
def question : Bytes := match (asker.encrypt storeCfg askDraw idB [1, 2]).1 with
  | .ok m => m
  | _ => []

/-- The hypotheses of `C116_replay_violated` hold for the request when the second receives it: it carries a lease set and data. -/
example : (match ((Mgr.new storeCfg idB [3] [4]).decrypt storeCfg askDraw question).1 with
    | .ok cs => cs.map (·.type)
    | _ => []) = [.databaseStore, .data] ∧ (garlicTag question).isSome = true := by decide +kernel

/-! ## C117: damaged and late messages -/

/-- The pending session with `d` is of no use any more. -/
def Broken (m : Mgr) (d : Bytes) : Prop := m.active.get d = none ∧ ∃ t, m.pending.get d = some ⟨t, .poisoned⟩

/-- C117 does not hold: a reply that cannot be decrypted ends the attempt to open a session: every message to the destination is refused. -/
theorem C117_damaged_reply_violated {C : Cfg} {m : Mgr} {d : Bytes} (v : Draw) {cr : Duration} {outs : List Outbound} {pk : Bytes}
    {nsr : NsrEntries} {es : List Entry} {t i : Nat} {e : Entry} {o : Outbound} {msg : Bytes} {x : Err}
    (ha : m.active.get d = none) (hp : m.pending.get d = some ⟨cr, .awaitNsr outs pk nsr es⟩) (hn : nsrGet nsr t = some (i, e))
    (ho : outs[i]? = some o) (ht : garlicTag msg = some t) (htd : m.tags.map t = some d)
    (hh : o.handleReply C.P C.E C.chk e msg = .error x) :
    ∃ m', m.decrypt C v msg = (.error x, m') ∧ Broken m' d := by
  refine ⟨{ m with tags := m.tags.remove t, pending := m.pending.put d ⟨cr, .poisoned⟩ }, ?_, ha, cr, Assoc.get_put ..⟩
  simp only [Mgr.decrypt, ht, htd, Mgr.decryptTagged, ha, hp, PState.advanceIn, hn, ho, hh]

/-- The same for the first message of a session to the responder. -/
theorem C117_damaged_first_violated {C : Cfg} {m : Mgr} {d : Bytes} (v : Draw) {cr : Duration} {ib : Inbound}
    {es : List Entry} {t : Nat} {e : Entry} {msg : Bytes} {x : Err}
    (ha : m.active.get d = none) (hp : m.pending.get d = some ⟨cr, .inbound ib es⟩) (hn : entryGet es t = some e)
    (ht : garlicTag msg = some t) (htd : m.tags.map t = some d)
    (hh : ib.existing C.P C.chk t e msg = .error x) :
    ∃ m', m.decrypt C v msg = (.error x, m') ∧ Broken m' d := by
  refine ⟨{ m with tags := m.tags.remove t, pending := m.pending.put d ⟨cr, .poisoned⟩ }, ?_, ha, cr, Assoc.get_put ..⟩
  simp only [Mgr.decrypt, ht, htd, Mgr.decryptTagged, ha, hp, PState.advanceIn, hn, hh]

/-- From then on every attempt to send fails, or aborts if assertions are on. -/
theorem C117_broken_violated {C : Cfg} {m : Mgr} {d : Bytes} (h : Broken m d) (v : Draw) (msg : Bytes) :
    (m.encrypt C v d msg).1 = (if C.chk then .panic else .error .invalidState) ∧ Broken (m.encrypt C v d msg).2 d := by
  obtain ⟨ha, t, hp⟩ := h
  simp only [Mgr.encrypt, ha, hp, PState.advanceOut, invalid]
  cases C.chk
  · exact ⟨rfl, ha, t, Assoc.get_put ..⟩
  · exact ⟨rfl, ha, t, hp⟩

theorem removeSession_get (m : Mgr) (d d' : Bytes) (h : m.active.get d = none) : (m.removeSession d').active.get d = none := by
  simp only [Mgr.removeSession]
  split
  · exact h
  · by_cases e : d = d'
    · rw [e]; exact Assoc.get_del ..
    · rw [Assoc.get_del_ne _ e]; exact h

theorem removeSession_pending (m : Mgr) (d : Bytes) : (m.removeSession d).pending = m.pending := by
  simp only [Mgr.removeSession]; split <;> rfl

theorem blocks_none (d d' : Bytes) (tag : Nat × Nat) (bs : List Block) : ∀ m : Mgr, m.active.get d = none →
    (Mgr.blocks d' tag bs m).2.2.active.get d = none ∧ (Mgr.blocks d' tag bs m).2.2.pending = m.pending := by
  induction bs with
  | nil => intro m h; exact ⟨h, rfl⟩
  | cons b bs ih =>
    intro m h
    cases b with
    | clove ty id ex dl bd => exact ih m h
    | ackRequest =>
      simp only [Mgr.blocks]
      split
      · rename_i a ha
        have hne : d ≠ d' := by rintro rfl; rw [h] at ha; cases ha
        exact ih { m with active := _ } (by rw [Assoc.get_put_ne _ _ hne]; exact h)
      · exact ih m h
    | ack acks =>
      simp only [Mgr.blocks]
      split
      · rename_i a ha
        have hne : d ≠ d' := by rintro rfl; rw [h] at ha; cases ha
        exact ih { m with active := _ } (by rw [Assoc.get_put_ne _ _ hne]; exact h)
      · exact ih m h
    | _ => exact ih m h

theorem finish_broken {C : Cfg} {m : Mgr} {d : Bytes} (h : Broken m d) (d' : Bytes) (tag : Nat × Nat) (plain : Bytes) : Broken (m.finish C d' tag plain).2 d := by
  simp only [Mgr.finish]
  split
  · exact h
  · rename_i bs _
    have := blocks_none d d' tag bs m h.1
    obtain ⟨_, t, hp⟩ := h
    split <;> exact ⟨this.1, t, by simp only [this.2]; exact hp⟩

/-- Nothing that is received mends it. -/
theorem C117_broken_receive_violated {C : Cfg} {m : Mgr} {d : Bytes} (h : Broken m d) (v : Draw) (msg : Bytes) : Broken (m.decrypt C v msg).2 d := by
  obtain ⟨ha, t, hp⟩ := id h
  simp only [Mgr.decrypt]
  split
  · exact h
  · split
    · have h1 : Broken (m.decryptNew C v msg).2 d := by
        simp only [Mgr.decryptNew]
        repeat' split
        all_goals first
          | exact h
          | skip
        rename_i d' _ _ _ hd'
        have hne : d ≠ d' := by
          rintro rfl
          rw [hp] at hd'; cases hd'
        exact ⟨ha, t, by rw [Assoc.get_put_ne _ _ hne]; exact hp⟩
      split <;> (rename_i h2; rw [h2] at h1)
      · exact h1
      · exact finish_broken h1 ..
    · rename_i tag _ _ d' _
      have h1 : Broken (({ m with tags := m.tags.remove tag } : Mgr).decryptTagged C v d' tag msg).2 d := by
        by_cases e : d = d'
        · subst e
          simp only [Mgr.decryptTagged, ha, hp, PState.advanceIn, invalid]
          cases C.chk
          · exact ⟨ha, t, Assoc.get_put ..⟩
          · exact ⟨ha, t, hp⟩
        · simp only [Mgr.decryptTagged]
          repeat' split
          all_goals first
            | exact ⟨ha, t, hp⟩
            | exact ⟨by simp only [Assoc.get_put_ne _ _ e]; exact ha, t, hp⟩
            | exact ⟨removeSession_get _ _ _ (by simp only [Assoc.get_put_ne _ _ e]; exact ha), t, by rw [removeSession_pending]; exact hp⟩
            | exact ⟨ha, t, by simp only [Assoc.get_put_ne _ _ e]; exact hp⟩
            | exact ⟨by simp only [Assoc.get_put_ne _ _ e]; exact ha, t, by simp only [Assoc.get_del_ne _ e]; exact hp⟩
      split <;> (rename_i h2; rw [h2] at h1)
      · exact h1
      · exact h1
      · exact finish_broken h1 ..

/-- The first tag for replies. -/
def firstTag : Nat := asked.tags.log.headD 0
def garbage : Bytes := be 4 100 ++ le 8 firstTag ++ List.replicate 60 7

/-- The hypotheses of `C117_damaged_reply_violated` hold for garbage with a tag for replies. -/
example : asked.active.get idB = none ∧ asked.tags.map firstTag = some idB ∧ garlicTag garbage = some firstTag ∧
    (match asked.pending.get idB with
      | some ⟨_, .awaitNsr outs _ nsr _⟩ => match nsrGet nsr firstTag with
        | some (i, e) => outs[i]?.map fun o => o.handleReply samplePrims sampleE false e garbage
        | none => none
      | _ => none) = some (.error .crypto) := by decide +kernel

end Emissary.Ecies
