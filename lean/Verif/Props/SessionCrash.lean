import Verif.Props.SessionFaults
/-!
# Garlic sessions: late replies and crashes
-/
namespace Emissary.Ecies
open Emissary Emissary.I2np Emissary.Garlic
open Emissary.Ssu2 (Prims)
open Emissary.Ntcp2 (unle le)
open Emissary.Ratchet

/-! ## C117: late replies -/

/-- Expired attempts leave their tags behind. -/
theorem C117_left_violated {m : Mgr} (ha : m.active = []) (now : Duration) : (m.maintain now).tags = m.tags := by
  simp only [Mgr.maintain, ha]; rfl

theorem Assoc.get_filter {β : Type} (m : Assoc β) {k : Bytes} {f : Bytes × β → Bool} (h : ∀ x ∈ m, x.1 = k → f x = false) : Assoc.get (m.filter f) k = none := by
  simp only [Assoc.get, Option.map_eq_none_iff, List.find?_eq_none, List.mem_filter]
  rintro x ⟨hx, hf⟩ he
  simp only [decide_eq_true_eq] at he
  rw [h x hx he] at hf; cases hf

theorem nsrGet_puts (i : Nat) (new : List Entry) : ∀ (es : NsrEntries) (x : Nat), (∀ e ∈ new, e.tag ≠ x) → nsrGet es x = none → nsrGet (nsrPuts es i new) x = none := by
  induction new with
  | nil => intro es x _ h; exact h
  | cons e new ih =>
    intro es x h hx
    simp only [nsrPuts, List.foldl_cons]
    refine ih _ x (fun y hy => h y (List.mem_cons_of_mem _ hy)) ?_
    have he := h e List.mem_cons_self
    simp only [nsrGet, nsrDel, List.find?_eq_none, List.mem_append, List.mem_filter, List.mem_singleton] at hx ⊢
    rintro y (⟨hy, _⟩ | rfl)
    · exact hx y hy
    · simpa using he

/-- C117 does not hold: if an attempt to open a session is given up after five minutes and another is made, a reply to the first one aborts the
program if assertions are on, and otherwise breaks the second attempt too. (`t` is a tag for replies to the first one, which is still
known, see `C117_left_violated`, and not a tag for replies to the second.) -/
theorem C117_late_reply_violated {C : Cfg} {m : Mgr} {d pk out data msg : Bytes} {now : Duration} (v v' : Draw) {t : Nat}
    (ha : (m.maintain now).active.get d = none) (hp : ∀ x ∈ m.pending, x.1 = d → x.2.created + pendingMaxAge < now)
    (htd : (m.maintain now).tags.map t = some d) (hk : m.remotes.get d = some pk)
    (hs : ((m.maintain now).encrypt C v d data).1 = .ok out)
    (hn : ∀ o x es, openSession C v m.ctx m.id d pk m.leaseSet data = some (o, x) → o.replyTags C.P C.T = some es → ∀ e ∈ es, e.tag ≠ t)
    (ht : garlicTag msg = some t) :
    let m' := ((m.maintain now).encrypt C v d data).2.decrypt C v' msg
    m'.1 = (if C.chk then .panic else .error .invalidState) ∧ (C.chk = false → Broken m'.2 d) := by
  have hpn : (m.maintain now).pending.get d = none := by
    apply Assoc.get_filter
    intro x hx he
    simp [Pending.expired, hp x hx he]
  have h1 : (m.maintain now).remotes = m.remotes := rfl
  have h2 : (m.maintain now).ctx = m.ctx := rfl
  have h3 : (m.maintain now).id = m.id := rfl
  have h4 : (m.maintain now).leaseSet = m.leaseSet := rfl
  intro m'
  have hm' : m' = ((m.maintain now).encrypt C v d data).2.decrypt C v' msg := rfl
  clear_value m'
  generalize m.maintain now = n at *
  simp only [Mgr.encrypt, ha, hpn, h1, h2, h3, h4, hk] at hs hm'
  split at hs
  · cases hs
  · rename_i o x ho
    rw [ho] at hm'
    simp only [Pending.outbound, Option.pure_def, Option.bind_eq_bind] at hs hm'
    cases hr : o.replyTags C.P C.T with
    | none => rw [hr] at hs; cases hs
    | some es =>
      rw [hr] at hm'
      have hes := hn o x es ho hr
      have hg : nsrGet (nsrPuts [] 0 es) t = none := nsrGet_puts 0 es [] t hes rfl
      have htag : (n.tags.inserts d (es.map (·.tag))).map t = some d := by
        rw [inserts_map, if_neg, htd]
        intro h
        obtain ⟨e, he, hee⟩ := List.mem_map.mp h
        exact hes e he hee
      simp only [Option.bind_some, Mgr.decrypt, ht, htag, Mgr.decryptTagged, ha, Assoc.get_put, PState.advanceIn, hg, invalid] at hm'
      cases hc : C.chk
      · simp only [hc, Bool.false_eq_true, if_false] at hm'
        rw [hm']
        exact ⟨rfl, fun _ => ⟨ha, _, Assoc.get_put ..⟩⟩
      · simp only [hc, if_true] at hm'
        rw [hm']
        exact ⟨rfl, fun h => by cases h⟩

/-- An attempt that is given up after five minutes. -/
example : let m := asked.maintain (300000000001 : Nat)
    m.active.get idB = none ∧ (∀ x ∈ asked.pending, x.1 = idB → x.2.created + pendingMaxAge < 300000000001) ∧ m.tags.map firstTag = some idB ∧
    asked.remotes.get idB = some (samplePrims.pub [3]) ∧
    (match (m.encrypt storeCfg { askDraw with esk := [7] } idB [1, 2]).1 with
      | .ok _ => true
      | _ => false) = true ∧
    (match openSession storeCfg { askDraw with esk := [7] } asked.ctx idA idB (samplePrims.pub [3]) [3] [1, 2] with
      | some (o, _) => (o.replyTags samplePrims askCfg.T).map fun es => es.any (·.tag = firstTag)
      | none => none) = some false := by decide +kernel

/-! ## C118: received messages do not abort the program -/

/-- C118 does not hold: a garlic message of less than twelve bytes aborts the program in every state. -/
theorem C118_short_violated (C : Cfg) (v : Draw) (m : Mgr) {msg : Bytes} (h : msg.length < 12) : (m.decrypt C v msg).1 = .panic := by
  have : garlicTag msg = none := by simp only [garlicTag]; rw [if_neg (by omega)]
  simp only [Mgr.decrypt, this]

/-- With assertions on, so does a request for a session that asks for an acknowledgment or gives one, if there is no session with its sender. -/
theorem C118_ack_violated {C : Cfg} (hc : C.chk = true) (v : Draw) {m : Mgr} {msg : Bytes} {tag : Nat} (ht : garlicTag msg = some tag)
    (hu : m.tags.map tag = none) {d plain : Bytes} (hd : (m.decryptNew C v msg).1 = .ok (d, plain)) {bs : List Block} (hp : parse plain = some bs)
    (ha : m.active.get d = none) (hb : .ackRequest ∈ bs ∨ ∃ acks, .ack acks ∈ bs) : (m.decrypt C v msg).1 = .panic := by
  simp only [Mgr.decrypt, ht, hu]
  split
  · rename_i h; rw [h] at hd; cases hd
  · rename_i d' plain' m1 h
    rw [h] at hd; cases hd
    obtain ⟨h1, _⟩ := decryptNew_ok h
    simp only [Mgr.finish, hp]
    rw [blocks_flag, h1, ha, hc]
    have : bs.any isAck = true := by
      rw [List.any_eq_true]
      rcases hb with hb | ⟨acks, hb⟩
      · exact ⟨_, hb, rfl⟩
      · exact ⟨_, hb, rfl⟩
    simp [this]

/-- With assertions on, so does a reply of less than sixty bytes. -/
theorem C118_short_reply_violated {C : Cfg} (hc : C.chk = true) {m : Mgr} {d : Bytes} (v : Draw) {cr : Duration} {outs : List Outbound} {pk : Bytes}
    {nsr : NsrEntries} {es : List Entry} {t i : Nat} {e : Entry} {o : Outbound} {msg : Bytes}
    (ha : m.active.get d = none) (hp : m.pending.get d = some ⟨cr, .awaitNsr outs pk nsr es⟩) (hn : nsrGet nsr t = some (i, e))
    (ho : outs[i]? = some o) (ht : garlicTag msg = some t) (htd : m.tags.map t = some d) (hl : msg.length < 60) :
    (m.decrypt C v msg).1 = .panic := by
  simp only [Mgr.decrypt, ht, htd, Mgr.decryptTagged, ha, hp, PState.advanceIn, hn, ho, Outbound.handleReply, hl, if_true, hc]

/-- Every tag for replies belongs to a request. -/
def PState.Indexed : PState → Prop
  | .awaitNsr outs _ nsr _ => ∀ x ∈ nsr, x.1 < outs.length
  | .awaitEs outs _ _ _ nsr _ => ∀ x ∈ nsr, x.1 < outs.length
  | _ => True

def Indexed (m : Mgr) : Prop := ∀ x ∈ m.pending, x.2.state.Indexed

theorem mem_of_nsrGet {nsr : NsrEntries} {t : Nat} {x : Nat × Entry} (h : nsrGet nsr t = some x) : x ∈ nsr := List.mem_of_find?_eq_some h

theorem mem_nsrDel {nsr : NsrEntries} {t : Nat} {x : Nat × Entry} (h : x ∈ nsrDel nsr t) : x ∈ nsr := (List.mem_filter.mp h).1

theorem mem_nsrPuts (i : Nat) (new : List Entry) : ∀ (es : NsrEntries) (x : Nat × Entry), x ∈ nsrPuts es i new → x ∈ es ∨ x.1 = i := by
  induction new with
  | nil => intro es x h; exact .inl h
  | cons e new ih =>
    intro es x h
    simp only [nsrPuts, List.foldl_cons] at h
    rcases ih _ x h with h | h
    · rcases List.mem_append.mp h with h | h
      · exact .inl (mem_nsrDel h)
      · rw [List.mem_singleton.mp h]; exact .inr rfl
    · exact .inr h

theorem indexed_out (C : Cfg) (v : Draw) (c : KeyCtx) (own remote ls msg : Bytes) (t : TagMap) {p : PState} (h : p.Indexed) :
    (p.advanceOut C v c own remote ls msg t).2.1.Indexed := by
  cases p <;> simp only [PState.advanceOut]
  · repeat' split
    all_goals trivial
  · repeat' split
    all_goals first | trivial | skip
    intro x hx
    simp only [List.length_append, List.length_cons, List.length_nil]
    rcases mem_nsrPuts _ _ _ _ hx with hx | hx
    · have := h x hx; omega
    · omega
  · repeat' split
    all_goals trivial
  · trivial

theorem indexed_in (C : Cfg) (remote : Bytes) (tag : Nat) (msg : Bytes) (t : TagMap) {p : PState} (h : p.Indexed) :
    (p.advanceIn C remote tag msg t).2.1.Indexed := by
  cases p <;> simp only [PState.advanceIn]
  · repeat' split
    all_goals trivial
  · repeat' split
    all_goals first | trivial | skip
    exact fun x hx => h x (mem_nsrDel hx)
  · repeat' split
    all_goals first | trivial | skip
    exact fun x hx => h x (mem_nsrDel hx)
  · trivial

theorem Assoc.mem_put {β : Type} {m : Assoc β} {k : Bytes} {y : β} {x : Bytes × β} (h : x ∈ m.put k y) : x ∈ m ∨ x.2 = y := by
  rcases List.mem_append.mp h with h | h
  · exact .inl (List.mem_filter.mp h).1
  · rw [List.mem_singleton.mp h]; exact .inr rfl

theorem Assoc.mem_of_get {β : Type} {m : Assoc β} {k : Bytes} {y : β} (h : m.get k = some y) : ∃ k', (k', y) ∈ m := by
  simp only [Assoc.get, Option.map_eq_some_iff] at h
  obtain ⟨x, hx, rfl⟩ := h
  exact ⟨x.1, List.mem_of_find?_eq_some hx⟩

theorem indexed_put {m : Mgr} (h : Indexed m) (d : Bytes) {p : Pending} (hp : p.state.Indexed) : ∀ x ∈ m.pending.put d p, x.2.state.Indexed := by
  intro x hx
  rcases Assoc.mem_put hx with hx | hx
  · exact h x hx
  · rw [hx]; exact hp

theorem indexed_del {m : Mgr} (h : Indexed m) (d : Bytes) : ∀ x ∈ m.pending.del d, x.2.state.Indexed :=
  fun x hx => h x (List.mem_filter.mp hx).1

theorem indexed_encrypt (C : Cfg) (v : Draw) {m : Mgr} (d msg : Bytes) (h : Indexed m) : Indexed (m.encrypt C v d msg).2 := by
  simp only [Mgr.encrypt]
  split
  · repeat' split
    all_goals first
      | exact h
      | (intro x hx; rw [removeSession_pending] at hx; exact h x hx)
  · split
    · rename_i p hp
      obtain ⟨_, hmem⟩ := Assoc.mem_of_get hp
      have h1 := indexed_out C v m.ctx m.id d m.leaseSet msg m.tags (h _ hmem)
      split <;> (rename_i h2; rw [h2] at h1)
      · exact h
      · exact indexed_put h d h1
      · exact indexed_put h d h1
      · exact indexed_del h d
      · exact h
    · repeat' split
      all_goals first | exact h | skip
      rename_i hp
      simp only [Pending.outbound, Option.pure_def, Option.bind_eq_bind, Option.bind_eq_some_iff] at hp
      obtain ⟨es, _, he⟩ := hp
      cases he
      refine indexed_put h d ?_
      intro x hx
      rcases mem_nsrPuts _ _ _ _ hx with hx | hx
      · cases hx
      · simp [hx]

theorem indexed_decryptTagged (C : Cfg) (v : Draw) {m : Mgr} (d : Bytes) (tag : Nat) (msg : Bytes) (h : Indexed m) :
    Indexed (m.decryptTagged C v d tag msg).2 := by
  simp only [Mgr.decryptTagged]
  split
  · repeat' split
    all_goals first
      | exact h
      | (intro x hx; rw [removeSession_pending] at hx; exact h x hx)
  · split
    · rename_i p hp
      obtain ⟨_, hmem⟩ := Assoc.mem_of_get hp
      have h1 := indexed_in C d tag msg m.tags (h _ hmem)
      split <;> (rename_i h2; rw [h2] at h1)
      · exact h
      · exact indexed_put h d h1
      · exact indexed_del h d
      · exact indexed_put h d h1
      · exact h
    · exact h

theorem indexed_finish (C : Cfg) {m : Mgr} (d : Bytes) (tag : Nat × Nat) (plain : Bytes) (h : Indexed m) : Indexed (m.finish C d tag plain).2 := by
  intro x hx
  rw [finish_pending] at hx
  exact h x hx

theorem indexed_decrypt (C : Cfg) (v : Draw) {m : Mgr} (msg : Bytes) (h : Indexed m) : Indexed (m.decrypt C v msg).2 := by
  simp only [Mgr.decrypt]
  split
  · exact h
  · split
    · have h1 : Indexed (m.decryptNew C v msg).2 := by
        simp only [Mgr.decryptNew]
        repeat' split
        all_goals first
          | exact h
          | exact indexed_put h _ trivial
      split <;> (rename_i h2; rw [h2] at h1)
      · exact h1
      · exact indexed_finish _ _ _ _ h1
    · rename_i tag _ _ d _
      have h1 := indexed_decryptTagged C v (m := { m with tags := m.tags.remove tag }) d tag msg h
      split <;> (rename_i h2; rw [h2] at h1)
      · exact h1
      · exact h1
      · exact indexed_finish _ _ _ _ h1

theorem indexed_step (C : Cfg) {m : Mgr} (h : Indexed m) (o : Op) : Indexed (m.step C o).2 := by
  cases o with
  | encrypt v d msg => exact indexed_encrypt C v d msg h
  | decrypt v msg => exact indexed_decrypt C v msg h
  | publish v d =>
    simp only [Mgr.step, Mgr.publish]
    repeat' split
    all_goals exact h
  | maintain now => exact fun x hx => h x (List.mem_filter.mp hx).1
  | _ => exact h

theorem indexed_run (C : Cfg) (ops : List Op) : ∀ {m : Mgr}, Indexed m → Indexed (m.run C ops) := by
  induction ops with
  | nil => intro m h; exact h
  | cons o ops ih => intro m h; exact ih (indexed_step C h o)

theorem nexts_zero (P : Prims) (n : Nat) : ∀ t : TagSet, t.index + n ≤ 65535 → TagSet.nexts P n t ≠ none := by
  induction n with
  | zero => intro t _; simp [TagSet.nexts]
  | succ n ih =>
    intro t h
    have hlt : t.index + 1 < 2 ^ 16 := by omega
    have e : t.next P = (some { key := (t.chain.step P).1.1, tag := (t.chain.step P).1.2, index := t.index, setId := t.id }, { t with index := t.index + 1, chain := (t.chain.step P).2 }) := by
      rw [TagSet.next, if_pos hlt]
    have := ih { t with index := t.index + 1, chain := (t.chain.step P).2 } (by simp only; omega)
    rw [TagSet.nexts, e]
    simp only [Option.pure_def, Option.bind_eq_bind]
    cases h' : TagSet.nexts P n { t with index := t.index + 1, chain := (t.chain.step P).2 } with
    | none => exact absurd h' this
    | some r => simp

theorem handleReply_total {C : Cfg} (hc : C.chk = false) (hE : ∀ b, C.E.decode b ≠ none) (o : Outbound) (e : Entry) (msg : Bytes) :
    o.handleReply C.P C.E C.chk e msg ≠ .panic := by
  simp only [Outbound.handleReply, hc, Bool.false_eq_true, if_false]
  repeat' split
  all_goals first
    | (intro h; cases h; done)
    | skip
  rename_i h
  exact absurd h (hE _)

theorem handle_total {P : Prims} (sk : Bytes) (t : TagSet) (k : NextKey) : (t.handle P false sk k).1 ≠ .panic := by
  simp only [TagSet.handle, invalid, Bool.false_eq_true, if_false]
  repeat' split
  all_goals simp

theorem upTo_state (P : Prims) (n : Nat) : ∀ t : TagSet, (TagSet.upTo P n t).2.state = t.state := by
  induction n with
  | zero => intro t; rfl
  | succ n ih =>
    intro t
    have hs : (t.next P).2.state = t.state := by simp only [TagSet.next]; split <;> rfl
    simp only [TagSet.upTo]
    split <;> (rename_i h; rw [h] at hs)
    · rw [ih]; exact hs
    · simp only [ih]; exact hs

/-- A ratchet starts a new tag set. -/
theorem ratchet_index {P : Prims} {chk : Bool} {sk : Bytes} {t t' : TagSet} {k : NextKey} (ht : t'.state = t.state)
    (hk : ∃ id key rev, k = .forward id key rev) (hr : t.canRatchet k = true) {r : Option NextKey} {t'' : TagSet} (h : t'.handle P chk sk k = (.ok r, t'')) : t''.index = 0 := by
  obtain ⟨id, key, rev, rfl⟩ := hk
  simp only [TagSet.canRatchet, ← ht] at hr
  simp only [TagSet.handle, TagSet.reinit] at h
  cases hs : t'.state with
  | uninit =>
    rw [hs] at hr h
    cases key <;> cases rev <;> cases id <;> simp at hr h
    rw [← h.2]
  | active s r' o q =>
    rw [hs] at hr h
    cases key <;> cases rev <;> simp only [Bool.and_eq_true, decide_eq_true_eq] at hr h
    · cases hr
    · have h1 := hr.1
      have h2 := hr.2
      simp only [decide_eq_true h1] at h
      rw [if_neg (by omega)] at h
      cases h; rfl
    · have h1 := hr.1
      have h2 := hr.2
      simp only [decide_eq_true h1] at h
      rw [if_neg (by omega)] at h
      cases h; rfl
    · cases id <;> simp at hr
  | _ =>
    rw [hs] at hr
    cases key <;> cases rev <;> cases id <;> simp at hr

theorem handleKey_total {C : Cfg} (hc : C.chk = false) (hT : C.T.recv ≤ 65535) (v : Draw) (remote sk : Bytes) (k : NextKey) (s : Sess) (t : TagMap) :
    (s.handleKey C v remote sk k t).1 ≠ .panic := by
  simp only [Sess.handleKey, hc]
  split
  · split
    · rename_i hr
      have hs := upTo_state C.P C.T.extra s.recv
      generalize TagSet.upTo C.P C.T.extra s.recv = u at *
      split
      · simp
      · rename_i h
        exact absurd (congrArg Prod.fst h) (handle_total _ _ _)
      · rename_i h
        have h0 := ratchet_index hs ⟨_, _, _, rfl⟩ hr h
        split
        · rename_i hn
          exact absurd hn (nexts_zero _ _ _ (by omega))
        · simp
    · split
      · simp
      · rename_i h
        exact absurd (congrArg Prod.fst h) (handle_total _ _ _)
      · simp
  · split
    · simp
    · rename_i h
      exact absurd (congrArg Prod.fst h) (handle_total _ _ _)
    · simp

theorem handleKeys_total {C : Cfg} (hc : C.chk = false) (hT : C.T.recv ≤ 65535) (v : Draw) (remote : Bytes) (bs : List Block) :
    ∀ (i : Nat) (s : Sess) (t : TagMap), (s.handleKeys C v remote i bs t).1 ≠ .panic := by
  induction bs with
  | nil => intro i s t; simp [Sess.handleKeys]
  | cons b bs ih =>
    intro i s t
    cases b with
    | nextKey k =>
      simp only [Sess.handleKeys]
      split
      · exact ih _ _ _
      · simp
      · rename_i h
        exact absurd (congrArg Prod.fst h) (handleKey_total hc hT _ _ _ _ _ _)
    | _ => simp only [Sess.handleKeys]; exact ih _ _ _

theorem decryptS_total {C : Cfg} (hc : C.chk = false) (hT : C.T.recv ≤ 65535) (hE : ∀ b, C.E.decode b ≠ none) (v : Draw) (remote : Bytes) (tag : Nat)
    (msg : Bytes) (s : Sess) (t : TagMap) : (s.decrypt C v remote tag msg t).1 ≠ .panic := by
  simp only [Sess.decrypt]
  split
  · simp only [Sess.decryptNsr, hc, invalid, Bool.false_eq_true, if_false]
    repeat' split
    all_goals first
      | (simp; done)
      | skip
    rename_i h
    exact absurd (hc ▸ h) (handleReply_total hc hE _ _ _)
  · repeat' split
    all_goals first
      | (simp; done)
      | skip
    rename_i h
    exact absurd (congrArg Prod.fst h) (handleKeys_total hc hT _ _ _ _ _ _)

theorem advanceIn_total {C : Cfg} (hc : C.chk = false) (hT : C.T.recv ≤ 65535) (hE : ∀ b, C.E.decode b ≠ none) (remote : Bytes) (tag : Nat)
    (msg : Bytes) {p : PState} (h : p.Indexed) (t : TagMap) :
    (p.advanceIn C remote tag msg t).1 ≠ .panic ∧ ∀ x, (p.advanceIn C remote tag msg t).1 ≠ .ok (.send x) := by
  cases p with
  | inbound i es =>
    simp only [PState.advanceIn, invalid, hc]
    split
    · simp
    · split
      · simp
      · simp
      · rename_i h
        simp only [Inbound.existing, invalid, Bool.false_eq_true, if_false] at h
        exfalso
        revert h
        repeat' split
        all_goals simp
  | awaitNsr outs pk nsr es =>
    simp only [PState.advanceIn, invalid, hc]
    split
    · simp
    · rename_i i e hn
      have hi := h _ (mem_of_nsrGet hn)
      rw [List.getElem?_eq_getElem hi]
      dsimp only
      have hh := handleReply_total hc hE outs[i] e msg
      rw [hc] at hh
      split
      · rename_i m send recv ho
        have h0 : recv.index = 0 := by
          simp only [Outbound.handleReply] at ho
          revert ho
          repeat' split
          all_goals intro ho; cases ho
          rfl
        split
        · rename_i hx; exact absurd hx (nexts_zero _ _ _ (by omega))
        · simp
      · simp
      · rename_i hx; exact absurd hx hh
  | awaitEs outs send recv pk nsr es =>
    simp only [PState.advanceIn, invalid, hc]
    split
    · simp
    · rename_i i e hn
      have hi := h _ (mem_of_nsrGet hn)
      rw [List.getElem?_eq_getElem hi]
      dsimp only
      have hh := handleReply_total hc hE outs[i] e msg
      rw [hc] at hh
      split
      · simp
      · simp
      · rename_i hx; exact absurd hx hh
  | poisoned => simp [PState.advanceIn, invalid, hc]

theorem finish_total {C : Cfg} (hc : C.chk = false) (m : Mgr) (d : Bytes) (tag : Nat × Nat) (plain : Bytes) : (m.finish C d tag plain).1 ≠ .panic := by
  simp only [Mgr.finish, hc]
  split
  · simp
  · simp

/-- C118 in part: without assertions, and if every 32 bytes decode to a key, no message of at least twelve bytes aborts the program, whatever
happened before. -/
theorem C118_release_partial {C : Cfg} (hc : C.chk = false) (hT : C.T.recv ≤ 65535) (hE : ∀ b, C.E.decode b ≠ none) (id sk ls : Bytes) (ops : List Op)
    (v : Draw) {msg : Bytes} (hl : 12 ≤ msg.length) : (((Mgr.new C id sk ls).run C ops).decrypt C v msg).1 ≠ .panic := by
  have hi : Indexed ((Mgr.new C id sk ls).run C ops) := indexed_run C ops (fun x hx => by cases hx)
  generalize (Mgr.new C id sk ls).run C ops = m at *
  have ht : garlicTag msg = some (unbe ((msg.drop 4).take 8).reverse) := by rw [garlicTag, if_pos hl]
  simp only [Mgr.decrypt, ht]
  split
  · split
    · simp
    · exact finish_total hc _ _ _ _
  · rename_i d _
    generalize unbe ((msg.drop 4).take 8).reverse = tag at *
    have hi' : Indexed { m with tags := m.tags.remove tag } := hi
    generalize ({ m with tags := m.tags.remove tag } : Mgr) = m1 at *
    have h1 : (m1.decryptTagged C v d tag msg).1 ≠ .panic := by
      simp only [Mgr.decryptTagged]
      split
      · rename_i a _
        split
        · rename_i h
          exact absurd (congrArg Prod.fst h) (decryptS_total hc hT hE _ _ _ _ _ _)
        all_goals simp
      · split
        · rename_i p hp
          obtain ⟨_, hmem⟩ := Assoc.mem_of_get hp
          have ⟨h2, h3⟩ := advanceIn_total hc hT hE d tag msg (hi' _ hmem) m1.tags
          split
          · rename_i h; exact absurd (congrArg Prod.fst h) h2
          · simp
          · simp
          · simp
          · rename_i h; exact absurd (congrArg Prod.fst h) (h3 _)
        · simp [invalid, hc]
    split
    · rename_i h; exact absurd (congrArg Prod.fst h) h1
    · simp
    · exact finish_total hc _ _ _ _

example := C118_release_partial (C := storeCfg) rfl (by decide) (by intro b; simp [storeCfg, askCfg, sampleE]) idA [2] [3]
  [.addRemote idB (samplePrims.pub [3]), .encrypt askDraw idB [1, 2]] askDraw (msg := garbage) (by decide +kernel)

end Emissary.Ecies
