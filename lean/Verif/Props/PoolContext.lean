import Verif.Model.PoolContext
import Mathlib.Data.List.Induction
/-!
# C128: messages that arrive in a tunnel pool
-/
namespace Emissary.PoolCtx
open Emissary Emissary.I2np Emissary.Routing

/-! ## Specification -/

/-- The tag of a garlic message: the eight bytes after its length. -/
def garlicTag (m : Message) : Bytes := (m.payload.drop 4).take 8

/-- What was delivered to listeners, in order. -/
def deliveries (log : List (Op × Res)) : List (Nat × Message) :=
  log.filterMap fun x => match x with
    | (.route m, .listener ch) => some (ch, m)
    | _ => none

/-- The message is one the listener was added for: it has its id, or it is a garlic message with a tag that was registered for the id. -/
def Meant (log : List (Op × Res)) (ch : Nat) (m : Message) : Prop :=
  ∃ id draws, (Op.add draws, Res.added id ch) ∈ log ∧
    (m.id = id ∨ m.type = .garlic ∧ ∃ r, (Op.tag id (garlicTag m), r) ∈ log)

/-! ## Lemmas -/

theorem run_append (chk : Bool) (l l' : List Op) : ∀ c : Ctx,
    c.run chk (l ++ l') = (((c.run chk l).1.run chk l').1, (c.run chk l).2 ++ ((c.run chk l).1.run chk l').2) := by
  induction l with
  | nil => intro c; rfl
  | cons o l ih => intro c; simp only [List.cons_append, Ctx.run, ih]

theorem deliveries_append (l l' : List (Op × Res)) : deliveries (l ++ l') = deliveries l ++ deliveries l' := by
  simp only [deliveries, List.filterMap_append]

/-- A step in pieces: what becomes of the listeners. -/
inductive Change (c c' : Ctx) (o : Op) (r : Res) : Prop where
  | same (h : c'.listeners = c.listeners) (hn : c'.next = c.next) (hr : ∀ ch, r ≠ .listener ch)
  | added (id : Nat) (h : c.listeners.get id = none) (h' : c'.listeners = c.listeners.put id c.next) (hn : c'.next = c.next + 1) (draws : List Nat) (ho : o = .add draws)
      (hr : r = .added id c.next)
  | removed (id : Nat) (h : c'.listeners = c.listeners.del id) (hn : c'.next = c.next) (ho : o = .remove id) (hr : ∀ ch, r ≠ .listener ch)
  | delivered (id ch : Nat) (m : Message) (h : c.listeners.get id = some ch) (h' : c'.listeners = c.listeners.del id) (hn : c'.next = c.next) (ho : o = .route m)
      (hr : r = if ch ∈ c.gone then .lost else .listener ch) (hm : m.id = id ∨ m.type = .garlic ∧ c.tags.get (garlicTag m) = some id)

theorem toOwner_spec (c : Ctx) (m : Message) : (c.toOwner m).1.listeners = c.listeners ∧ (c.toOwner m).1.next = c.next ∧ (c.toOwner m).1.gone = c.gone ∧
    (c.toOwner m).1.tags = c.tags ∧ (c.toOwner m).1.ids = c.ids ∧ ((c.toOwner m).2 = .owner ∨ (c.toOwner m).2 = .lost) := by
  simp only [Ctx.toOwner]
  split <;> simp

theorem byId_spec (c : Ctx) (id : Nat) (m : Message) :
    (c.byId id m).1.next = c.next ∧ (c.byId id m).1.gone = c.gone ∧ (c.byId id m).1.tags = c.tags ∧ (c.byId id m).1.ids = c.ids ∧
    match c.listeners.get id with
    | some ch => (c.byId id m).1.listeners = c.listeners.del id ∧ (c.byId id m).2 = if ch ∈ c.gone then .lost else .listener ch
    | none => (c.byId id m).1.listeners = c.listeners ∧ ((c.byId id m).2 = .pool ∨ (c.byId id m).2 = .lost) := by
  simp only [Ctx.byId]
  cases h : c.listeners.get id with
  | some ch => simp [Ctx.deliver]
  | none => simp only; split <;> simp

theorem untag_spec (c : Ctx) (id : Nat) : (c.untag id).listeners = c.listeners ∧ (c.untag id).next = c.next ∧ (c.untag id).gone = c.gone := by
  simp only [Ctx.untag]
  split <;> simp

theorem byId_change (c c0 : Ctx) (id : Nat) (m : Message) (h : c.listeners = c0.listeners ∧ c.next = c0.next ∧ c.gone = c0.gone)
    (hm : m.id = id ∨ m.type = .garlic ∧ c0.tags.get (garlicTag m) = some id) : Change c0 (c.byId id m).1 (.route m) (c.byId id m).2 := by
  obtain ⟨h1, h2, h3⟩ := h
  obtain ⟨b1, b2, _, _, b5⟩ := byId_spec c id m
  rw [h1, h3] at b5
  cases hg : c0.listeners.get id with
  | none =>
    rw [hg] at b5
    exact .same b5.1 (b1.trans h2) (by rcases b5.2 with e | e <;> rw [e] <;> simp)
  | some ch =>
    rw [hg] at b5
    exact .delivered id ch m hg b5.1 (b1.trans h2) rfl b5.2 hm

theorem step_change (chk : Bool) (c : Ctx) (o : Op) : Change c (c.step chk o).1 o (c.step chk o).2 := by
  cases o with
  | add draws =>
    simp only [Ctx.step, Ctx.add]
    split
    · rename_i id h
      exact .added id (by simpa using List.find?_some h) rfl rfl draws rfl rfl
    · exact .same rfl rfl (by simp)
  | tag id tag =>
    simp only [Ctx.step, Ctx.tag]
    split <;> exact .same rfl rfl (by simp)
  | remove id =>
    obtain ⟨h1, h2, _⟩ := untag_spec { c with listeners := c.listeners.del id } id
    exact .removed id h1 h2 rfl (by simp [Ctx.step])
  | drop ch => exact .same rfl rfl (by simp [Ctx.step])
  | ownerReads => exact .same rfl rfl (by simp [Ctx.step])
  | poolReads => exact .same rfl rfl (by simp [Ctx.step])
  | route m =>
    have ow : Change c (c.toOwner m).1 (.route m) (c.toOwner m).2 := by
      obtain ⟨h1, h2, _, _, _, h6⟩ := toOwner_spec c m
      exact .same h1 h2 (by rcases h6 with e | e <;> rw [e] <;> simp)
    have bi := byId_change c c m.id m ⟨rfl, rfl, rfl⟩ (.inl rfl)
    simp only [Ctx.step, Ctx.route]
    split
    · rename_i ht
      split
      · exact .same rfl rfl (by simp)
      · split
        · rename_i id hid
          split
          · exact .same rfl rfl (by simp)
          · exact byId_change _ c id m ⟨rfl, rfl, rfl⟩ (.inr ⟨ht, hid⟩)
        · split
          · rename_i ch hch
            exact .delivered m.id ch m hch rfl rfl rfl rfl (.inl rfl)
          · exact ow
    · exact ow
    · exact ow
    · exact ow
    · exact byId_change _ c m.id m (untag_spec c m.id) (.inl rfl)
    · exact bi

/-- What becomes of the tags. -/
inductive Tags (c c' : Ctx) (o : Op) (r : Res) : Prop where
  | same (h : c'.tags = c.tags) (h' : c'.ids = c.ids)
  | tagged (id : Nat) (t : Bytes) (ho : o = .tag id t) (h : c'.tags = c.tags.put t id) (h' : c'.ids = c.ids.put id t)
  | found (m : Message) (id : Nat) (ho : o = .route m) (ht : m.type = .garlic) (hl : 12 ≤ m.payload.length) (hg : c.tags.get (garlicTag m) = some id)
      (h : c'.tags = c.tags.del (garlicTag m)) (h' : c'.ids = c.ids.del id)
  | untagged (id : Nat) (t : Bytes) (hg : c.ids.get id = some t) (h : c'.tags = c.tags.del t) (h' : c'.ids = c.ids.del id)
      (ho : o = .remove id ∨ ∃ m, o = .route m ∧ m.type = .outboundTunnelBuildReply ∧ m.id = id)

theorem untag_tags (c c0 : Ctx) (id : Nat) (h : c.tags = c0.tags ∧ c.ids = c0.ids) {c' : Ctx} (e : c'.tags = (c.untag id).tags ∧ c'.ids = (c.untag id).ids) (o : Op) (r : Res)
    (ho : o = .remove id ∨ ∃ m, o = .route m ∧ m.type = .outboundTunnelBuildReply ∧ m.id = id) : Tags c0 c' o r := by
  simp only [Ctx.untag] at e
  split at e
  · rename_i t ht
    exact .untagged id t (by rw [← h.2]; exact ht) (by rw [e.1, ← h.1]) (by rw [e.2, ← h.2]) ho
  · exact .same (e.1.trans h.1) (e.2.trans h.2)

theorem step_tags (chk : Bool) (c : Ctx) (o : Op) : Tags c (c.step chk o).1 o (c.step chk o).2 := by
  cases o with
  | add draws =>
    simp only [Ctx.step, Ctx.add]
    split <;> exact .same rfl rfl
  | tag id tag =>
    simp only [Ctx.step, Ctx.tag]
    split
    · exact .same rfl rfl
    · exact .tagged id tag rfl rfl rfl
  | remove id => exact untag_tags { c with listeners := c.listeners.del id } c id ⟨rfl, rfl⟩ ⟨rfl, rfl⟩ _ _ (.inl rfl)
  | drop ch => exact .same rfl rfl
  | ownerReads => exact .same rfl rfl
  | poolReads => exact .same rfl rfl
  | route m =>
    have ow : Tags c (c.toOwner m).1 (.route m) (c.toOwner m).2 := by
      obtain ⟨_, _, _, h4, h5, _⟩ := toOwner_spec c m
      exact .same h4 h5
    have bi : ∀ c1 : Ctx, ((c1.byId m.id m).1).tags = c1.tags ∧ ((c1.byId m.id m).1).ids = c1.ids := fun c1 => ⟨(byId_spec c1 m.id m).2.2.1, (byId_spec c1 m.id m).2.2.2.1⟩
    simp only [Ctx.step, Ctx.route]
    split
    · rename_i ht
      split
      · exact .same rfl rfl
      · rename_i hl
        split
        · rename_i id hid
          split
          · exact .found m id rfl ht (by omega) hid rfl rfl
          · obtain ⟨_, _, b3, b4, _⟩ := byId_spec { c with tags := c.tags.del ((m.payload.drop 4).take 8), ids := c.ids.del id } id m
            exact .found m id rfl ht (by omega) hid b3 b4
        · split
          · exact .same rfl rfl
          · exact ow
    · exact ow
    · exact ow
    · exact ow
    · rename_i ht
      exact untag_tags c c m.id ⟨rfl, rfl⟩ (bi _) _ _ (.inr ⟨m, rfl, ht, rfl⟩)
    · exact .same (bi c).1 (bi c).2

theorem step_gone (chk : Bool) (c : Ctx) (o : Op) : (c.step chk o).1.gone = c.gone ∨ ∃ ch, o = .drop ch ∧ (c.step chk o).1.gone = ch :: c.gone := by
  cases o with
  | add draws => left; simp only [Ctx.step, Ctx.add]; split <;> rfl
  | tag id tag => left; simp only [Ctx.step, Ctx.tag]; split <;> rfl
  | remove id => left; exact (untag_spec { c with listeners := c.listeners.del id } id).2.2
  | drop ch => exact .inr ⟨ch, rfl, rfl⟩
  | ownerReads => exact .inl rfl
  | poolReads => exact .inl rfl
  | route m =>
    left
    have ow := (toOwner_spec c m).2.2.1
    simp only [Ctx.step, Ctx.route]
    split
    · split
      · rfl
      · split
        · split
          · rfl
          · exact (byId_spec ..).2.1
        · split
          · rfl
          · exact ow
    · exact ow
    · exact ow
    · exact ow
    · exact (byId_spec ..).2.1.trans (untag_spec c m.id).2.2
    · exact (byId_spec ..).2.1

structure Inv (c : Ctx) (log : List (Op × Res)) : Prop where
  nd : ((deliveries log).map (·.1)).Nodup
  fresh : ∀ x ∈ deliveries log, x.1 < c.next ∧ ∀ id, c.listeners.get id ≠ some x.1
  lt : ∀ id ch, c.listeners.get id = some ch → ch < c.next
  inj : ∀ id id' ch, c.listeners.get id = some ch → c.listeners.get id' = some ch → id = id'
  right : ∀ x ∈ deliveries log, Meant log x.1 x.2
  asked : ∀ id ch, c.listeners.get id = some ch → ∃ draws, (Op.add draws, Res.added id ch) ∈ log
  tagged : ∀ t id, c.tags.get t = some id → ∃ r, (Op.tag id t, r) ∈ log

theorem Meant.mono {log : List (Op × Res)} {ch : Nat} {m : Message} (h : Meant log ch m) (x : Op × Res) : Meant (log ++ [x]) ch m := by
  obtain ⟨id, draws, h1, h2⟩ := h
  exact ⟨id, draws, List.mem_append_left _ h1, h2.imp (fun h => h) fun h => ⟨h.1, h.2.imp fun r h => List.mem_append_left _ h⟩⟩

theorem inv_step (chk : Bool) {c : Ctx} {log : List (Op × Res)} (h : Inv c log) (o : Op) : Inv (c.step chk o).1 (log ++ [(o, (c.step chk o).2)]) := by
  have ht : ∀ t id, (c.step chk o).1.tags.get t = some id → ∃ r, (Op.tag id t, r) ∈ log ++ [(o, (c.step chk o).2)] := by
    intro t id hg
    have old : c.tags.get t = some id → ∃ r, (Op.tag id t, r) ∈ log ++ [(o, (c.step chk o).2)] := fun hg =>
      (h.tagged t id hg).imp fun r h => List.mem_append_left _ h
    cases step_tags chk c o with
    | same h1 => exact old (h1 ▸ hg)
    | tagged i s ho h1 =>
      rw [h1, AMap.get_put] at hg
      split at hg
      · rename_i e
        cases hg
        subst e
        exact ⟨(c.step chk o).2, by rw [ho]; simp⟩
      · exact old hg
    | found m i _ _ _ _ h1 =>
      rw [h1, AMap.get_del] at hg
      split at hg
      · cases hg
      · exact old hg
    | untagged i s _ h1 =>
      rw [h1, AMap.get_del] at hg
      split at hg
      · cases hg
      · exact old hg
  have keep : ∀ {c' : Ctx} {r : Res}, (∀ ch, r ≠ .listener ch) → deliveries (log ++ [(o, r)]) = deliveries log := by
    intro c' r hr
    rw [deliveries_append]
    have : deliveries [(o, r)] = [] := by
      simp only [deliveries, List.filterMap_cons, List.filterMap_nil]
      split
      · rfl
      · rename_i y e
        split at e
        · rename_i hch; cases hch; exact absurd rfl (hr _)
        · cases e
    rw [this, List.append_nil]
  have mono : ∀ id ch, (∃ draws, (Op.add draws, Res.added id ch) ∈ log) → ∃ draws, (Op.add draws, Res.added id ch) ∈ log ++ [(o, (c.step chk o).2)] :=
    fun id ch hx => hx.imp fun d h => List.mem_append_left _ h
  cases step_change chk c o with
  | same h1 hn hr =>
    have e := keep (c' := c) hr
    refine ⟨by rw [e]; exact h.nd, ?_, ?_, ?_, ?_, ?_, ht⟩
    · rw [e, h1, hn]; exact h.fresh
    · rw [h1, hn]; exact h.lt
    · rw [h1]; exact h.inj
    · rw [e]; exact fun x hx => (h.right x hx).mono _
    · rw [h1]; exact fun id ch hg => mono id ch (h.asked id ch hg)
  | added id hg h1 hn draws ho hr =>
    have e := keep (c' := c) (r := (c.step chk o).2) (by rw [hr]; simp)
    refine ⟨by rw [e]; exact h.nd, ?_, ?_, ?_, ?_, ?_, ht⟩
    · rw [e, h1, hn]
      intro x hx
      obtain ⟨f1, f2⟩ := h.fresh x hx
      refine ⟨by omega, fun i => ?_⟩
      rw [AMap.get_put]
      split
      · intro e; injection e with e; omega
      · exact f2 i
    · rw [h1, hn]
      intro i ch hi
      rw [AMap.get_put] at hi
      split at hi
      · cases hi; omega
      · have := h.lt i ch hi; omega
    · rw [h1]
      intro i i' ch hi hi'
      rw [AMap.get_put] at hi hi'
      split at hi <;> split at hi'
      · simp_all
      · cases hi; have := h.lt _ _ hi'; omega
      · cases hi'; have := h.lt _ _ hi; omega
      · exact h.inj _ _ _ hi hi'
    · rw [e]; exact fun x hx => (h.right x hx).mono _
    · rw [h1]
      intro i ch hi
      rw [AMap.get_put] at hi
      split at hi
      · rename_i e
        cases hi
        subst e
        exact ⟨draws, by rw [hr, ho]; simp⟩
      · exact mono i ch (h.asked i ch hi)
  | removed id h1 hn ho hr =>
    have e := keep (c' := c) hr
    have sub : ∀ {i ch}, (c.listeners.del id).get i = some ch → c.listeners.get i = some ch := by
      intro i ch hi
      rw [AMap.get_del] at hi
      split at hi
      · cases hi
      · exact hi
    refine ⟨by rw [e]; exact h.nd, ?_, ?_, ?_, ?_, ?_, ht⟩
    · rw [e, h1, hn]; exact fun x hx => ⟨(h.fresh x hx).1, fun i hi => (h.fresh x hx).2 i (sub hi)⟩
    · rw [h1, hn]; exact fun i ch hi => h.lt i ch (sub hi)
    · rw [h1]; exact fun i i' ch hi hi' => h.inj i i' ch (sub hi) (sub hi')
    · rw [e]; exact fun x hx => (h.right x hx).mono _
    · rw [h1]; exact fun i ch hg => mono i ch (h.asked i ch (sub hg))
  | delivered id ch m hg h1 hn ho hr hm =>
    have sub : ∀ {i ch}, (c.listeners.del id).get i = some ch → c.listeners.get i = some ch := by
      intro i ch hi
      rw [AMap.get_del] at hi
      split at hi
      · cases hi
      · exact hi
    have lt : ∀ i ch, (c.step chk o).1.listeners.get i = some ch → ch < (c.step chk o).1.next := by
      rw [h1, hn]; exact fun i ch hi => h.lt i ch (sub hi)
    have inj : ∀ i i' ch, (c.step chk o).1.listeners.get i = some ch → (c.step chk o).1.listeners.get i' = some ch → i = i' := by
      rw [h1]; exact fun i i' ch hi hi' => h.inj i i' ch (sub hi) (sub hi')
    have asked : ∀ i ch, (c.step chk o).1.listeners.get i = some ch → ∃ draws, (Op.add draws, Res.added i ch) ∈ log ++ [(o, (c.step chk o).2)] := by
      rw [h1]; exact fun i ch hg => mono i ch (h.asked i ch (sub hg))
    by_cases hgone : ch ∈ c.gone
    · have e := keep (c' := c) (r := (c.step chk o).2) (by rw [hr, if_pos hgone]; simp)
      refine ⟨by rw [e]; exact h.nd, ?_, lt, inj, ?_, asked, ht⟩
      · rw [e, h1, hn]; exact fun x hx => ⟨(h.fresh x hx).1, fun i hi => (h.fresh x hx).2 i (sub hi)⟩
      · rw [e]; exact fun x hx => (h.right x hx).mono _
    · rw [if_neg hgone] at hr
      have e : deliveries (log ++ [(o, (c.step chk o).2)]) = deliveries log ++ [(ch, m)] := by
        rw [deliveries_append, hr, ho]; rfl
      refine ⟨?_, ?_, lt, inj, ?_, asked, ht⟩
      · rw [e, List.map_append, List.nodup_append]
        refine ⟨h.nd, by simp, ?_⟩
        intro a ha b hb
        simp only [List.map_cons, List.map_nil, List.mem_singleton] at hb
        subst hb
        obtain ⟨x, hx, rfl⟩ := List.mem_map.1 ha
        intro e
        exact (h.fresh x hx).2 id (e ▸ hg)
      · rw [e, h1, hn]
        intro x hx
        rcases List.mem_append.1 hx with hx | hx
        · exact ⟨(h.fresh x hx).1, fun i hi => (h.fresh x hx).2 i (sub hi)⟩
        · simp only [List.mem_singleton] at hx
          subst hx
          refine ⟨h.lt _ _ hg, fun i hi => ?_⟩
          have hi' := sub hi
          have := h.inj _ _ _ hg hi'
          subst this
          rw [AMap.get_del, if_pos rfl] at hi
          cases hi
      · rw [e]
        intro x hx
        rcases List.mem_append.1 hx with hx | hx
        · exact (h.right x hx).mono _
        · simp only [List.mem_singleton] at hx
          subst hx
          obtain ⟨d, hd⟩ := h.asked _ _ hg
          refine ⟨id, d, List.mem_append_left _ hd, hm.imp (fun h => h) fun hm => ⟨hm.1, ?_⟩⟩
          exact (h.tagged _ _ hm.2).imp fun r h => List.mem_append_left _ h

theorem run_inv (chk : Bool) (ops : List Op) : Inv (({} : Ctx).run chk ops).1 (({} : Ctx).run chk ops).2 := by
  induction ops using List.reverseRecOn with
  | nil => exact ⟨by simp [Ctx.run, deliveries], by simp [Ctx.run, deliveries], fun _ _ h => by simp [Ctx.run, AMap.get] at h, fun _ _ _ h => by simp [Ctx.run, AMap.get] at h,
      by simp [Ctx.run, deliveries], fun _ _ h => by simp [Ctx.run, AMap.get] at h, fun _ _ h => by simp [Ctx.run, AMap.get] at h⟩
  | append_singleton l o ih =>
    rw [run_append]
    exact inv_step chk ih o

theorem run_ops (chk : Bool) (ops : List Op) : ∀ c : Ctx, (c.run chk ops).2.map (·.1) = ops := by
  induction ops with
  | nil => intro c; rfl
  | cons o l ih => intro c; simp only [Ctx.run, List.map_cons, ih]

/-! ## C128 -/

/-- C128: over any history, a listener receives at most one message. -/
theorem C128_once (chk : Bool) (ops : List Op) : ((deliveries (({} : Ctx).run chk ops).2).map (·.1)).Nodup :=
  (run_inv chk ops).nd

/-- C128: and what it receives was meant for it. -/
theorem C128_right (chk : Bool) (ops : List Op) (ch : Nat) (m : Message) (h : (ch, m) ∈ deliveries (({} : Ctx).run chk ops).2) :
    Meant (({} : Ctx).run chk ops).2 ch m :=
  (run_inv chk ops).right _ h

/-- The listener `ch` for `id` is left alone: it isn't removed, its receiver isn't dropped and nothing was delivered to it. -/
def Untouched (log : List (Op × Res)) (id ch : Nat) : Prop :=
  ∀ x ∈ log, x.1 ≠ .remove id ∧ x.1 ≠ .drop ch ∧ x.2 ≠ .listener ch

theorem kept_step (chk : Bool) {c : Ctx} {id ch : Nat} (h : c.listeners.get id = some ch) (hn : ch ∉ c.gone) (hinj : ∀ id' , c.listeners.get id' = some ch → id' = id) (o : Op)
    (h1 : o ≠ .remove id) (h2 : o ≠ .drop ch) (h3 : (c.step chk o).2 ≠ .listener ch) :
    (c.step chk o).1.listeners.get id = some ch ∧ ch ∉ (c.step chk o).1.gone := by
  constructor
  · cases step_change chk c o with
    | same e => rw [e]; exact h
    | added i hg e =>
      rw [e, AMap.get_put, if_neg]
      · exact h
      · rintro rfl; rw [h] at hg; cases hg
    | removed i e _ ho =>
      rw [e, AMap.get_del, if_neg]
      · exact h
      · rintro rfl; exact h1 ho
    | delivered i ch' m hg e _ ho hr =>
      rw [e, AMap.get_del, if_neg]
      · exact h
      · rintro rfl
        rw [h] at hg
        cases hg
        rw [if_neg hn] at hr
        exact h3 hr
  · rcases step_gone chk c o with e | ⟨ch', ho, e⟩
    · rw [e]; exact hn
    · rw [e]
      intro hm
      rcases List.mem_cons.1 hm with e | hm
      · exact h2 (e ▸ ho)
      · exact hn hm

theorem kept_run (chk : Bool) {id ch : Nat} (mid : List Op) : ∀ {c : Ctx} {log : List (Op × Res)}, Inv c log → c.listeners.get id = some ch → ch ∉ c.gone →
    Untouched (c.run chk mid).2 id ch → (c.run chk mid).1.listeners.get id = some ch ∧ ch ∉ (c.run chk mid).1.gone := by
  induction mid with
  | nil => intro c log _ h1 h2 _; exact ⟨h1, h2⟩
  | cons o l ih =>
    intro c log hi h1 h2 hu
    simp only [Ctx.run] at hu ⊢
    obtain ⟨u1, u2, u3⟩ := hu _ (List.mem_cons_self ..)
    obtain ⟨k1, k2⟩ := kept_step chk h1 h2 (fun i h => hi.inj _ _ _ h h1) o u1 u2 u3
    exact ih (inv_step chk hi o) k1 k2 fun x hx => hu x (List.mem_cons_of_mem _ hx)

theorem gone_run (chk : Bool) (ops : List Op) (ch : Nat) (h : Op.drop ch ∉ ops) : ch ∉ (({} : Ctx).run chk ops).1.gone := by
  induction ops using List.reverseRecOn with
  | nil => simp [Ctx.run]
  | append_singleton l o ih =>
    rw [run_append]
    have ih := ih fun hm => h (List.mem_append_left _ hm)
    rcases step_gone chk (({} : Ctx).run chk l).1 o with e | ⟨ch', ho, e⟩
    · simp only [Ctx.run]; rw [e]; exact ih
    · simp only [Ctx.run]; rw [e]
      intro hm
      rcases List.mem_cons.1 hm with e | hm
      · exact h (by rw [ho, ← e]; simp)
      · exact ih hm

/-- The state after the steps. -/
abbrev after (chk : Bool) (ops : List Op) : Ctx := (({} : Ctx).run chk ops).1

/-- What happened in the steps `mid` that follow the steps `pre`. -/
abbrev since (chk : Bool) (pre mid : List Op) : List (Op × Res) := ((after chk pre).run chk mid).2

theorem awaits (chk : Bool) (pre mid : List Op) (draws : List Nat) (id ch : Nat) (ha : ((after chk pre).step chk (.add draws)).2 = .added id ch)
    (hd : Op.drop ch ∉ pre) (hu : Untouched (since chk (pre ++ [.add draws]) mid) id ch) :
    (after chk (pre ++ .add draws :: mid)).listeners.get id = some ch ∧ ch ∉ (after chk (pre ++ .add draws :: mid)).gone := by
  have e : pre ++ .add draws :: mid = (pre ++ [.add draws]) ++ mid := by simp
  rw [e]
  simp only [after, run_append chk (pre ++ [.add draws]) mid]
  refine kept_run chk mid (run_inv chk _) ?_ ?_ hu
  · rw [run_append]
    simp only [Ctx.run]
    have hc := step_change chk (after chk pre) (.add draws)
    cases hc with
    | same _ _ _ =>
      simp only [Ctx.step, Ctx.add] at ha ⊢
      split at ha
      · rename_i i hi; injection ha with e1 e2; subst e1; subst e2; simp [hi]
      · cases ha
    | added i hg h1 hn d ho hr =>
      rw [hr] at ha
      injection ha with e1 e2
      subst e1; subst e2
      rw [h1, AMap.get_put, if_pos rfl]
    | removed i h1 hn ho => cases ho
    | delivered _ _ _ _ _ _ ho => cases ho
  · refine gone_run chk _ ch ?_
    simp only [List.mem_append, List.mem_singleton, reduceCtorEq, or_false]
    exact hd

/-- C128: the reply to a build request reaches whoever waits for it, whatever happened in between. -/
theorem C128_reply (chk : Bool) (pre mid : List Op) (draws : List Nat) (id ch : Nat) (ha : ((after chk pre).step chk (.add draws)).2 = .added id ch)
    (hd : Op.drop ch ∉ pre) (hu : Untouched (since chk (pre ++ [.add draws]) mid) id ch)
    (m : Message) (ht : m.type = .outboundTunnelBuildReply) (hm : m.id = id) :
    ((after chk (pre ++ .add draws :: mid)).step chk (.route m)).2 = .listener ch := by
  obtain ⟨h1, h2⟩ := awaits chk pre mid draws id ch ha hd hu
  generalize after chk (pre ++ .add draws :: mid) = c at h1 h2
  subst hm
  simp only [Ctx.step, Ctx.route, ht]
  obtain ⟨_, _, _, _, b⟩ := byId_spec (c.untag m.id) m.id m
  obtain ⟨u1, _, u3⟩ := untag_spec c m.id
  rw [u1, h1, u3] at b
  rw [b.2, if_neg h2]

/-! Garlic tags -/

/-- The operation registers neither a tag for the id nor the tag. -/
def NoTag (id : Nat) (t : Bytes) (o : Op) : Prop := ∀ i s, o = .tag i s → i ≠ id ∧ s ≠ t

structure Bound (c : Ctx) (id : Nat) (t : Bytes) : Prop where
  tag : c.tags.get t = some id
  bid : c.ids.get id = some t
  ids : ∀ i, c.ids.get i = some t → i = id
  tags : ∀ s, c.tags.get s = some id → s = t

structure Unbound (c : Ctx) (id : Nat) (t : Bytes) : Prop where
  ids : ∀ i, c.ids.get i ≠ some t
  tags : ∀ s, c.tags.get s ≠ some id

theorem unbound_step (chk : Bool) {c : Ctx} {id : Nat} {t : Bytes} (h : Unbound c id t) (o : Op) (hn : NoTag id t o) : Unbound (c.step chk o).1 id t := by
  cases step_tags chk c o with
  | same h1 h2 => exact ⟨by rw [h2]; exact h.ids, by rw [h1]; exact h.tags⟩
  | tagged i s ho h1 h2 =>
    obtain ⟨n1, n2⟩ := hn i s ho
    refine ⟨?_, ?_⟩
    · intro j; rw [h2, AMap.get_put]; split
      · intro e; injection e with e; exact n2 e
      · exact h.ids j
    · intro j; rw [h1, AMap.get_put]; split
      · intro e; injection e with e; exact n1 e
      · exact h.tags j
  | found m i _ _ _ _ h1 h2 =>
    refine ⟨?_, ?_⟩
    · intro j; rw [h2, AMap.get_del]; split
      · simp
      · exact h.ids j
    · intro j; rw [h1, AMap.get_del]; split
      · simp
      · exact h.tags j
  | untagged i s _ h1 h2 =>
    refine ⟨?_, ?_⟩
    · intro j; rw [h2, AMap.get_del]; split
      · simp
      · exact h.ids j
    · intro j; rw [h1, AMap.get_del]; split
      · simp
      · exact h.tags j

theorem unbound_run (chk : Bool) {id : Nat} {t : Bytes} (l : List Op) : ∀ {c : Ctx}, Unbound c id t → (∀ o ∈ l, NoTag id t o) → Unbound (c.run chk l).1 id t := by
  induction l with
  | nil => intro c h _; exact h
  | cons o l ih =>
    intro c h hn
    exact ih (unbound_step chk h o (hn o (List.mem_cons_self ..))) fun x hx => hn x (List.mem_cons_of_mem _ hx)

theorem byId_some {c : Ctx} {id ch : Nat} (m : Message) (h : c.listeners.get id = some ch) (hn : ch ∉ c.gone) : (c.byId id m).2 = .listener ch := by
  obtain ⟨_, _, _, _, b⟩ := byId_spec c id m
  rw [h] at b
  rw [b.2, if_neg hn]

/-- A garlic message with a tag that is bound to an id with a listener. -/
theorem garlic_found (chk : Bool) {c : Ctx} {id ch : Nat} {t : Bytes} (m : Message) (ht : m.type = .garlic) (hl : 12 ≤ m.payload.length) (hg : garlicTag m = t)
    (hb : Bound c id t) (h : c.listeners.get id = some ch) (hn : ch ∉ c.gone) : (c.step chk (.route m)).2 = .listener ch := by
  subst hg
  have e1 : c.tags.get ((m.payload.drop 4).take 8) = some id := hb.tag
  have e2 : c.ids.get id = some ((m.payload.drop 4).take 8) := hb.bid
  simp only [Ctx.step, Ctx.route, ht, if_neg (show ¬ m.payload.length < 12 by omega), e1, e2]
  simp only [ne_eq, not_true_eq_false, decide_false, Bool.and_false, Bool.false_eq_true, if_false]
  exact byId_some m h hn

theorem bound_step (chk : Bool) {c : Ctx} {id ch : Nat} {t : Bytes} (hb : Bound c id t) (h : c.listeners.get id = some ch) (hn : ch ∉ c.gone) (o : Op) (ho : NoTag id t o)
    (h1 : o ≠ .remove id) (h3 : (c.step chk o).2 ≠ .listener ch) : Bound (c.step chk o).1 id t := by
  cases step_tags chk c o with
  | same e1 e2 => exact ⟨by rw [e1]; exact hb.tag, by rw [e2]; exact hb.bid, by rw [e2]; exact hb.ids, by rw [e1]; exact hb.tags⟩
  | tagged i s ho' e1 e2 =>
    obtain ⟨n1, n2⟩ := ho i s ho'
    refine ⟨?_, ?_, ?_, ?_⟩
    · rw [e1, AMap.get_put, if_neg (Ne.symm n2)]; exact hb.tag
    · rw [e2, AMap.get_put, if_neg (Ne.symm n1)]; exact hb.bid
    · intro j; rw [e2, AMap.get_put]; split
      · intro e; injection e with e; exact absurd e n2
      · exact hb.ids j
    · intro j; rw [e1, AMap.get_put]; split
      · intro e; injection e with e; exact absurd e n1
      · exact hb.tags j
  | found m i ho' ht hl hg e1 e2 =>
    have nt : garlicTag m ≠ t := by
      intro e
      exact h3 (ho' ▸ garlic_found chk m ht hl e hb h hn)
    have ni : i ≠ id := by rintro rfl; exact nt (hb.tags _ hg)
    refine ⟨?_, ?_, ?_, ?_⟩
    · rw [e1, AMap.get_del, if_neg (Ne.symm nt)]; exact hb.tag
    · rw [e2, AMap.get_del, if_neg (Ne.symm ni)]; exact hb.bid
    · intro j; rw [e2, AMap.get_del]; split
      · simp
      · exact hb.ids j
    · intro j; rw [e1, AMap.get_del]; split
      · simp
      · exact hb.tags j
  | untagged i s hg e1 e2 ho' =>
    have ni : i ≠ id := by
      rintro rfl
      rcases ho' with e | ⟨m, e, hty, rfl⟩
      · exact h1 e
      · refine h3 ?_
        rw [e]
        simp only [Ctx.step, Ctx.route, hty]
        obtain ⟨u1, _, u3⟩ := untag_spec c m.id
        exact byId_some m (u1 ▸ h) (u3 ▸ hn)
    have ns : s ≠ t := by rintro rfl; exact ni (hb.ids _ hg)
    refine ⟨?_, ?_, ?_, ?_⟩
    · rw [e1, AMap.get_del, if_neg (Ne.symm ns)]; exact hb.tag
    · rw [e2, AMap.get_del, if_neg (Ne.symm ni)]; exact hb.bid
    · intro j; rw [e2, AMap.get_del]; split
      · simp
      · exact hb.ids j
    · intro j; rw [e1, AMap.get_del]; split
      · simp
      · exact hb.tags j

theorem bound_run (chk : Bool) {id ch : Nat} {t : Bytes} (mid : List Op) : ∀ {c : Ctx} {log : List (Op × Res)}, Inv c log → Bound c id t → c.listeners.get id = some ch → ch ∉ c.gone →
    (∀ o ∈ mid, NoTag id t o) → Untouched (c.run chk mid).2 id ch → Bound (c.run chk mid).1 id t := by
  induction mid with
  | nil => intro c log _ h1 _ _ _ _; exact h1
  | cons o l ih =>
    intro c log hi hb h1 h2 hn hu
    simp only [Ctx.run] at hu ⊢
    obtain ⟨u1, u2, u3⟩ := hu _ (List.mem_cons_self ..)
    obtain ⟨k1, k2⟩ := kept_step chk h1 h2 (fun i h => hi.inj _ _ _ h h1) o u1 u2 u3
    exact ih (inv_step chk hi o) (bound_step chk hb h1 h2 o (hn o (List.mem_cons_self ..)) u1 u3) k1 k2 (fun o ho => hn o (List.mem_cons_of_mem _ ho))
      fun x hx => hu x (List.mem_cons_of_mem _ hx)

theorem since_append (chk : Bool) (pre a b : List Op) : since chk pre (a ++ b) = since chk pre a ++ since chk (pre ++ a) b := by
  simp only [since, after, run_append]

/-- C128: a reply wrapped in a garlic message reaches whoever registered its tag, whatever happened in between, if nobody else used the tag or the id. -/
theorem C128_garlic (chk : Bool) (pre mid mid' : List Op) (draws : List Nat) (id ch : Nat) (t : Bytes) (ha : ((after chk pre).step chk (.add draws)).2 = .added id ch)
    (hd : Op.drop ch ∉ pre) (hu : Untouched (since chk (pre ++ [.add draws]) (mid ++ .tag id t :: mid')) id ch)
    (ho : ∀ o ∈ pre ++ mid ++ mid', NoTag id t o)
    (m : Message) (ht : m.type = .garlic) (hl : 12 ≤ m.payload.length) (hg : garlicTag m = t) :
    ((after chk (pre ++ .add draws :: (mid ++ .tag id t :: mid'))).step chk (.route m)).2 = .listener ch := by
  obtain ⟨h1, h2⟩ := awaits chk pre _ draws id ch ha hd hu
  refine garlic_found chk m ht hl hg ?_ h1 h2
  have hu1 : Untouched (since chk (pre ++ [.add draws]) mid) id ch := by
    rw [since_append] at hu
    exact fun x hx => hu x (List.mem_append_left _ hx)
  have hu2 : Untouched (since chk (pre ++ [.add draws]) (mid ++ [.tag id t])) id ch := by
    rw [show mid ++ .tag id t :: mid' = (mid ++ [.tag id t]) ++ mid' by simp, since_append] at hu
    exact fun x hx => hu x (List.mem_append_left _ hx)
  have hu3 : Untouched (since chk (pre ++ .add draws :: (mid ++ [.tag id t])) mid') id ch := by
    rw [show mid ++ .tag id t :: mid' = (mid ++ [.tag id t]) ++ mid' by simp, since_append,
      show (pre ++ [Op.add draws]) ++ (mid ++ [Op.tag id t]) = pre ++ .add draws :: (mid ++ [.tag id t]) by simp] at hu
    exact fun x hx => hu x (List.mem_append_right _ hx)
  obtain ⟨g1, g2⟩ := awaits chk pre (mid ++ [.tag id t]) draws id ch ha hd hu2
  rw [show pre ++ Op.add draws :: (mid ++ .tag id t :: mid') = (pre ++ .add draws :: (mid ++ [.tag id t])) ++ mid' by simp]
  simp only [after]
  rw [run_append]
  refine bound_run chk mid' (run_inv chk _) ?_ g1 g2 (fun o hm => ho o (List.mem_append_right _ hm)) hu3
  have un : Unbound (after chk (pre ++ .add draws :: mid)) id t := by
    refine unbound_run chk _ ⟨fun i => by simp [AMap.get], fun s => by simp [AMap.get]⟩ ?_
    intro o hm
    rcases List.mem_append.1 hm with hm | hm
    · exact ho o (by simp [hm])
    · rcases List.mem_cons.1 hm with rfl | hm
      · intro i s e; cases e
      · exact ho o (by simp [hm])
  rw [show pre ++ Op.add draws :: (mid ++ [.tag id t]) = (pre ++ .add draws :: mid) ++ [.tag id t] by simp, run_append]
  simp only [Ctx.run, Ctx.step, Ctx.tag]
  obtain ⟨w1, _⟩ := awaits chk pre mid draws id ch ha hd hu1
  simp only [after] at w1 un
  rw [w1]
  simp only [Option.isNone_some, Bool.and_false, Bool.false_eq_true, if_false]
  refine ⟨by simp, by simp, ?_, ?_⟩
  · intro i; rw [AMap.get_put]; split
    · intro _; assumption
    · intro e; exact absurd e (un.ids i)
  · intro i; rw [AMap.get_put]; split
    · intro _; assumption
    · intro e; exact absurd e (un.tags i)

/-- C128: messages about the network database, and garlic messages that nobody waits for, go to the pool's owner, in order and unchanged, unless its queue is full. -/
theorem C128_owner (chk : Bool) (c : Ctx) (m : Message)
    (h : m.type = .databaseStore ∨ m.type = .databaseLookup ∨ m.type = .databaseSearchReply ∨
      m.type = .garlic ∧ 12 ≤ m.payload.length ∧ c.tags.get (garlicTag m) = none ∧ c.listeners.get m.id = none)
    (hr : c.owner.queue.length < c.owner.cap) (hc : c.owner.closed = false) :
    c.step chk (.route m) = ({ c with owner := { c.owner with queue := c.owner.queue ++ [m] } }, .owner) := by
  have e : c.toOwner m = ({ c with owner := { c.owner with queue := c.owner.queue ++ [m] } }, .owner) := by
    simp only [Ctx.toOwner, Chan.trySend, hc]
    rw [if_neg (by simp), if_pos (by omega)]
  rcases h with h | h | h | ⟨h, hl, ht, hi⟩
  · simp only [Ctx.step, Ctx.route, h]; exact e
  · simp only [Ctx.step, Ctx.route, h]; exact e
  · simp only [Ctx.step, Ctx.route, h]; exact e
  · simp only [garlicTag] at ht
    simp only [Ctx.step, Ctx.route, h, if_neg (show ¬ m.payload.length < 12 by omega), ht, hi]
    exact e

/-- C128, against "no message makes the router fail": a garlic message of less than twelve bytes ends the task that received it, in every state and build. -/
theorem C128_short_garlic_violated (chk : Bool) (c : Ctx) (m : Message) (h : m.type = .garlic) (hl : m.payload.length < 12) :
    (c.step chk (.route m)).2 = .panic := by
  simp only [Ctx.step, Ctx.route, h, if_pos hl]

/-- C128: nothing else does, in a release build. -/
theorem C128_safe_partial (c : Ctx) (m : Message) (h : m.type = .garlic → 12 ≤ m.payload.length) : (c.step false (.route m)).2 ≠ .panic := by
  have ow : ∀ c : Ctx, (c.toOwner m).2 ≠ .panic := fun c => by
    rcases (toOwner_spec c m).2.2.2.2.2 with e | e <;> rw [e] <;> simp
  have bi : ∀ (c : Ctx) id, (c.byId id m).2 ≠ .panic := fun c id => by
    obtain ⟨_, _, _, _, b⟩ := byId_spec c id m
    cases hg : c.listeners.get id with
    | none => rw [hg] at b; rcases b.2 with e | e <;> rw [e] <;> simp
    | some ch => rw [hg] at b; rw [b.2]; split <;> simp
  simp only [Ctx.step, Ctx.route, Bool.false_and, Bool.false_eq_true, if_false]
  split
  · rename_i ht
    rw [if_neg (by have := h ht; omega)]
    split
    · exact bi _ _
    · split
      · simp only [Ctx.deliver]; split <;> simp
      · exact ow c
  · exact ow c
  · exact ow c
  · exact ow c
  · exact bi _ _
  · exact bi _ _

/-! ## Cases -/

/-- A garlic message and a build reply. -/
def sampleGarlic : Message := { type := .garlic, id := 77, expiration := 0, payload := [0, 0, 0, 40, 1, 2, 3, 4, 5, 6, 7, 8, 9] }
def sampleReply : Message := { type := .outboundTunnelBuildReply, id := 5, expiration := 0, payload := [1] }

/-- Two listeners; the second is found by its tag, the first by its id. -/
def sampleOps : List Op := [.add [5], .add [5, 9], .tag 9 [1, 2, 3, 4, 5, 6, 7, 8], .route sampleGarlic, .route sampleReply, .route sampleReply]

example : deliveries (({} : Ctx).run true sampleOps).2 = [(1, sampleGarlic), (0, sampleReply)] := by decide +kernel
example := C128_once true sampleOps
example := C128_right true sampleOps 1 sampleGarlic (by decide +kernel)
example := C128_reply true [] [.add [5, 9], .tag 9 [1, 2, 3, 4, 5, 6, 7, 8], .route sampleGarlic] [5] 5 0 (by decide +kernel) (by simp)
  (by unfold Untouched; decide +kernel) sampleReply rfl rfl
example := C128_garlic true [.add [5]] [] [.route sampleReply] [5, 9] 9 1 [1, 2, 3, 4, 5, 6, 7, 8] (by decide +kernel) (by simp)
  (by unfold Untouched; decide +kernel) (by intro o ho; simp at ho; rcases ho with rfl | rfl <;> (intro i s e; cases e)) sampleGarlic rfl (by decide) rfl
example := C128_owner true {} sampleGarlic (.inr (.inr (.inr ⟨rfl, by decide, rfl, rfl⟩))) (by decide) rfl
example := C128_short_garlic_violated false {} { sampleGarlic with payload := [0, 0, 0, 7] } rfl (by decide)
example := C128_safe_partial (after true sampleOps) sampleGarlic (fun _ => by decide)

end Emissary.PoolCtx
