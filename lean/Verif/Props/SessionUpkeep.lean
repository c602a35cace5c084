import Verif.Props.SessionChat
/-!
# Garlic sessions: what is forgotten when, and publishing of lease sets
-/
namespace Emissary.Ecies
open Emissary Emissary.I2np Emissary.Garlic
open Emissary.Ssu2 (Prims)
open Emissary.Ntcp2 (unle le)
open Emissary.Ratchet

/-! ## Specification -/

/-- Three minutes, in nanoseconds. -/
def threeMinutes : Duration := 180000000000

/-- The tags of tag sets that were replaced at least three minutes ago. -/
def replacedTags (now : Duration) (s : Sess) : List Nat := (s.expiring.filter fun g => decide (g.1 + threeMinutes ≤ now)).flatMap (·.2)

/-- The tags for replies, if the session is at least three minutes old. -/
def oldReplyTags (now : Duration) (s : Sess) : List Nat :=
  match s.nsr with
  | some (created, nsr, _) => if created + threeMinutes ≤ now then nsr.map (·.2.tag) else []
  | none => []

/-- What maintenance at a time forgets of a session. -/
def forgotten (now : Duration) (a : Active) : List Nat :=
  if a.lastRecv + 600000000000 < now ∧ a.lastSent + 480000000000 < now then a.s.entries.map (·.tag)
  else oldReplyTags now a.s ++ replacedTags now a.s

/-- The time of a call. -/
def Op.time : Op → Option Duration
  | .encrypt v _ _ => some v.now
  | .decrypt v _ => some v.now
  | .publish v _ => some v.now
  | .maintain now => some now
  | _ => none

/-- The clock does not go back. -/
def Forward : Duration → List Op → Prop
  | _, [] => True
  | t, o :: ops => match o.time with
    | none => Forward t ops
    | some t' => t ≤ t' ∧ Forward t' ops

/-- The time of the last call. -/
def lastTime : Duration → List Op → Duration
  | t, [] => t
  | t, o :: ops => lastTime (o.time.getD t) ops

/-! ## Tag sets are replaced in order -/

def OrdS (t : Duration) (s : Sess) : Prop := s.expiring.Pairwise (fun x y => x.1 ≤ y.1) ∧ ∀ x ∈ s.expiring, x.1 ≤ t

def Ord (t : Duration) (m : Mgr) : Prop := ∀ x ∈ m.active, OrdS t x.2.s

theorem OrdS.mono {t t' : Duration} (h : t ≤ t') {s : Sess} (hs : OrdS t s) : OrdS t' s := ⟨hs.1, fun x hx => Nat.le_trans (hs.2 x hx) h⟩

theorem Ord.mono {t t' : Duration} (h : t ≤ t') {m : Mgr} (hm : Ord t m) : Ord t' m := fun x hx => (hm x hx).mono h

theorem OrdS.same {t : Duration} {s s' : Sess} (h : OrdS t s) (e : s'.expiring = s.expiring) : OrdS t s' := by rw [OrdS, e]; exact h

theorem ord_push {t : Duration} {l : List (Duration × List Nat)} (h : l.Pairwise (fun x y => x.1 ≤ y.1) ∧ ∀ x ∈ l, x.1 ≤ t) (ts : List Nat) :
    (l ++ [(t, ts)]).Pairwise (fun x y => x.1 ≤ y.1) ∧ ∀ x ∈ l ++ [(t, ts)], x.1 ≤ t := by
  refine ⟨List.pairwise_append.mpr ⟨h.1, by simp, ?_⟩, ?_⟩
  · intro x hx y hy
    rw [List.mem_singleton.mp hy]; exact h.2 x hx
  · intro x hx
    rcases List.mem_append.mp hx with hx | hx
    · exact h.2 x hx
    · rw [List.mem_singleton.mp hx]; exact Nat.le_refl _

theorem ord_handleKey (C : Cfg) (v : Draw) (remote sk : Bytes) (k : NextKey) {s : Sess} (t : TagMap) (h : OrdS v.now s) : OrdS v.now (s.handleKey C v remote sk k t).2.1 := by
  simp only [Sess.handleKey]
  repeat' split
  all_goals first
    | exact h
    | exact ord_push h _

theorem ord_handleKeys (C : Cfg) (v : Draw) (remote : Bytes) (bs : List Block) : ∀ (i : Nat) {s : Sess} (t : TagMap), OrdS v.now s →
    OrdS v.now (Sess.handleKeys C v remote i bs s t).2.1 := by
  induction bs with
  | nil => intro i s t h; exact h
  | cons b bs ih =>
    intro i s t h
    cases b with
    | nextKey kind =>
      simp only [Sess.handleKeys]
      have h1 := ord_handleKey C v remote (v.keys i) kind t h
      split <;> (rename_i h2; rw [h2] at h1)
      · exact ih _ _ h1
      · exact h1
      · exact h1
    | _ => exact ih i t h

theorem ord_decryptS (C : Cfg) (v : Draw) (remote : Bytes) (tag : Nat) (msg : Bytes) {s : Sess} (t : TagMap) (h : OrdS v.now s) :
    OrdS v.now (s.decrypt C v remote tag msg t).2.1 := by
  simp only [Sess.decrypt]
  split
  · refine h.same ?_
    simp only [Sess.decryptNsr]
    repeat' split
    all_goals rfl
  · rename_i e he
    have h0 : OrdS v.now (({ s with entries := entryDel s.entries tag } : Sess).refill C remote t).1 := by
      refine h.same ?_
      simp only [Sess.refill]
      split <;> rfl
    split
    · exact h0
    · split
      · exact h0
      · rename_i bs hbs
        have h1 := ord_handleKeys C v remote bs 0 (({ s with entries := entryDel s.entries tag } : Sess).refill C remote t).2 h0
        split <;> (rename_i h2; rw [h2] at h1; exact h1)

theorem ord_encryptS (C : Cfg) (v : Draw) (bs : List Block) (s : Sess) : ((s.encrypt C v bs).2).expiring = s.expiring := by
  simp only [Sess.encrypt]
  repeat' split
  all_goals rfl

theorem expire_sublist (now : Duration) (l : List (Duration × List Nat)) : ∀ (es : List Entry) (t : TagMap), (Sess.expire now l es t).1.Sublist l := by
  induction l with
  | nil => intro es t; exact List.Sublist.refl _
  | cons x l ih =>
    intro es t
    simp only [Sess.expire]
    split
    · exact List.Sublist.refl _
    · exact (ih _ _).cons _

theorem ord_maintainS (now : Duration) {t0 : Duration} {s : Sess} (t : TagMap) (h : OrdS t0 s) : OrdS t0 (s.maintain now t).1 := by
  have hs : ∃ s1 t1, (s.maintain now t).1.expiring = (Sess.expire now s.expiring s1 t1).1 := by
    simp only [Sess.maintain]
    split
    · exact ⟨_, _, rfl⟩
    · split <;> exact ⟨_, _, rfl⟩
  obtain ⟨s1, t1, e⟩ := hs
  have hsub := expire_sublist now s.expiring s1 t1
  rw [OrdS, e]
  exact ⟨h.1.sublist hsub, fun x hx => h.2 x (hsub.subset hx)⟩

theorem ord_put {t : Duration} {m : Mgr} (h : Ord t m) (d : Bytes) {a : Active} (ha : OrdS t a.s) : ∀ x ∈ m.active.put d a, OrdS t x.2.s := by
  intro x hx
  rcases Assoc.mem_put hx with hx | hx
  · exact h x hx
  · rw [hx]; exact ha

theorem ord_remove {t : Duration} {m : Mgr} (h : Ord t m) (d : Bytes) : Ord t (m.removeSession d) := by
  simp only [Mgr.removeSession]
  split
  · exact h
  · exact fun x hx => h x (List.mem_filter.mp hx).1

theorem ord_remove' {t : Duration} {m : Mgr} (h : ∀ x ∈ m.active, OrdS t x.2.s) (d : Bytes) : ∀ x ∈ (m.removeSession d).active, OrdS t x.2.s := ord_remove h d

theorem get_filter_some {β : Type} {f : Bytes × β → Bool} {d : Bytes} {a : β} (l : Assoc β) (h : l.get d = some a) (hf : f (d, a) = true) :
    Assoc.get (l.filter f) d = some a := by
  simp only [Assoc.get] at h ⊢
  induction l with
  | nil => cases h
  | cons y l ih =>
    obtain ⟨k, b⟩ := y
    by_cases e : k = d
    · subst e
      simp only [List.find?_cons, decide_true, Option.map_some, Option.some.injEq] at h
      subst h
      rw [List.filter_cons_of_pos hf]
      simp
    · simp only [List.find?_cons, e, decide_false] at h
      by_cases hy : f (k, b) = true
      · rw [List.filter_cons_of_pos hy]
        simp only [List.find?_cons, e, decide_false]
        exact ih h
      · rw [List.filter_cons_of_neg hy]
        exact ih h

theorem ord_new {t now : Duration} {s : Sess} (h : s.expiring = []) : OrdS t (Active.new now s).s := by
  rw [OrdS]
  simp only [Active.new, h]
  exact ⟨List.Pairwise.nil, by simp⟩

theorem advanceOut_new {C : Cfg} {v : Draw} {c : KeyCtx} {own remote ls msg : Bytes} {t : TagMap} {p : PState} {out : Bytes} {s : Sess} {i j : Nat} {q : PState} {t' : TagMap}
    (h : p.advanceOut C v c own remote ls msg t = (.ok (.create out s i j), q, t')) : s.expiring = [] := by
  cases p <;> simp only [PState.advanceOut, invalid] at h
  · repeat' split at h
    all_goals cases h
  · repeat' split at h
    all_goals cases h
  · repeat' split at h
    all_goals cases h
    all_goals rfl
  · split at h <;> cases h

theorem advanceIn_new {C : Cfg} {remote msg : Bytes} {tag : Nat} {t : TagMap} {p : PState} {out : Bytes} {s : Sess} {i j : Nat} {q : PState} {t' : TagMap}
    (h : p.advanceIn C remote tag msg t = (.ok (.create out s i j), q, t')) : s.expiring = [] := by
  cases p <;> simp only [PState.advanceIn, invalid] at h
  · repeat' split at h
    all_goals cases h
    all_goals rfl
  · repeat' split at h
    all_goals cases h
  · repeat' split at h
    all_goals cases h
  · split at h <;> cases h

theorem ord_encrypt (C : Cfg) (v : Draw) {m : Mgr} (d msg : Bytes) (h : Ord v.now m) : Ord v.now (m.encrypt C v d msg).2 := by
  simp only [Mgr.encrypt]
  split
  · rename_i a ha
    obtain ⟨_, hmem⟩ := Assoc.mem_of_get ha
    have h0 := h _ hmem
    generalize hb : ([dataClove v 0 d msg] ++ (if a.inAcks.isEmpty then [] else [Block.ack a.inAcks])) ++ _ = bs
    have h1 : OrdS v.now (a.s.encrypt C v bs).2 := h0.same (ord_encryptS C v bs a.s)
    split <;> (rename_i h2; rw [h2] at h1)
    · exact h
    · exact ord_remove' (ord_put h d h1) d
    · exact ord_put h d h1
    · refine ord_put h d ?_
      split <;> exact h1
  · split
    · split
      · exact h
      · exact h
      · exact h
      · rename_i h2
        exact ord_put h d (ord_new (advanceOut_new h2))
      · exact h
    · repeat' split
      all_goals exact h

theorem ord_decryptTagged (C : Cfg) (v : Draw) {m : Mgr} (d : Bytes) (tag : Nat) (msg : Bytes) (h : Ord v.now m) : Ord v.now (m.decryptTagged C v d tag msg).2 := by
  simp only [Mgr.decryptTagged]
  split
  · rename_i a ha
    obtain ⟨_, hmem⟩ := Assoc.mem_of_get ha
    have h1 := ord_decryptS C v d tag msg m.tags (h _ hmem)
    split <;> (rename_i h2; rw [h2] at h1)
    · exact h
    · exact ord_put h d h1
    · exact ord_remove' (ord_put h d h1) d
    · exact ord_put h d h1
  · split
    · split
      · exact h
      · exact h
      · rename_i h2
        exact ord_put h d (ord_new (advanceIn_new h2))
      · exact h
      · exact h
    · exact h

theorem ord_blocks (d : Bytes) (tag : Nat × Nat) {t : Duration} (bs : List Block) : ∀ {m : Mgr}, Ord t m → Ord t (Mgr.blocks d tag bs m).2.2 := by
  induction bs with
  | nil => intro m h; exact h
  | cons b bs ih =>
    intro m h
    cases b with
    | clove => exact ih h
    | ackRequest =>
      simp only [Mgr.blocks]
      split
      · rename_i a ha
        obtain ⟨_, hmem⟩ := Assoc.mem_of_get ha
        exact ih (ord_put h d (a := { a with inAcks := setPut a.inAcks tag }) (h _ hmem))
      · exact ih h
    | ack acks =>
      simp only [Mgr.blocks]
      split
      · rename_i a ha
        obtain ⟨_, hmem⟩ := Assoc.mem_of_get ha
        refine ih (ord_put h d ?_)
        split <;> exact h _ hmem
      · exact ih h
    | _ => exact ih h

theorem ord_finish (C : Cfg) {t : Duration} {m : Mgr} (d : Bytes) (tag : Nat × Nat) (plain : Bytes) (h : Ord t m) : Ord t (m.finish C d tag plain).2 := by
  simp only [Mgr.finish]
  split
  · exact h
  · have := ord_blocks d tag (t := t) ‹_› h
    split <;> exact this

theorem ord_decrypt (C : Cfg) (v : Draw) {m : Mgr} (msg : Bytes) (h : Ord v.now m) : Ord v.now (m.decrypt C v msg).2 := by
  simp only [Mgr.decrypt]
  split
  · exact h
  · split
    · have h1 : Ord v.now (m.decryptNew C v msg).2 := by
        simp only [Mgr.decryptNew]
        repeat' split
        all_goals exact h
      split <;> (rename_i h2; rw [h2] at h1)
      · exact h1
      · exact ord_finish _ _ _ _ h1
    · rename_i tag _ _ d _
      have h1 := ord_decryptTagged C v (m := { m with tags := m.tags.remove tag }) d tag msg h
      split <;> (rename_i h2; rw [h2] at h1)
      · exact h1
      · exact h1
      · exact ord_finish _ _ _ _ h1

theorem ord_maintainAll (now : Duration) {t0 : Duration} (l : Assoc Active) : ∀ t : TagMap, (∀ x ∈ l, OrdS t0 x.2.s) → ∀ x ∈ (maintainAll now l t).1, OrdS t0 x.2.s := by
  induction l with
  | nil => intro t _ x hx; cases hx
  | cons y l ih =>
    intro t h x hx
    simp only [maintainAll] at hx
    rcases List.mem_cons.mp hx with rfl | hx
    · exact ord_maintainS now t (h y List.mem_cons_self)
    · exact ih _ (fun z hz => h z (List.mem_cons_of_mem _ hz)) x hx

theorem ord_step (C : Cfg) {t : Duration} {m : Mgr} (h : Ord t m) (o : Op) (ht : ∀ t', o.time = some t' → t ≤ t') : Ord (o.time.getD t) (m.step C o).2 := by
  cases o with
  | addRemote d pk => exact h
  | registerLeaseSet ls =>
    intro x hx
    obtain ⟨y, hy, rfl⟩ := List.mem_map.mp hx
    exact h y hy
  | encrypt v d msg => exact ord_encrypt C v d msg (h.mono (ht _ rfl))
  | decrypt v msg => exact ord_decrypt C v msg (h.mono (ht _ rfl))
  | publish v d =>
    have h := h.mono (ht _ rfl)
    simp only [Mgr.step, Mgr.publish]
    split
    · exact h
    · rename_i a ha
      obtain ⟨_, hmem⟩ := Assoc.mem_of_get ha
      have h1 : ∀ bs, OrdS v.now (a.s.encrypt C v bs).2 := fun bs => (h _ hmem).same (ord_encryptS C v bs a.s)
      have h1 := h1 [storeClove v 0 m.id m.leaseSet, .ackRequest]
      split
      · exact h
      · split <;> (rename_i h2; rw [h2] at h1)
        · exact h
        · exact ord_put h d h1
        · exact ord_put h d h1
  | maintain now =>
    have h := h.mono (ht _ rfl)
    exact ord_maintainAll now _ _ fun x hx => h x (List.mem_filter.mp hx).1

theorem ord_run (C : Cfg) (ops : List Op) : ∀ {t : Duration} {m : Mgr}, Ord t m → Forward t ops → Ord (lastTime t ops) (m.run C ops) := by
  induction ops with
  | nil => intro t m h _; exact h
  | cons o ops ih =>
    intro t m h hf
    simp only [Forward] at hf
    refine ih (ord_step C h o ?_) ?_
    · intro t' e
      rw [e] at hf; exact hf.1
    · cases e : o.time with
      | none => rw [e] at hf; exact hf
      | some t' => rw [e] at hf; exact hf.2

/-! ## C127: what is forgotten -/

theorem removes_map (xs : List Nat) : ∀ (t : TagMap) (x : Nat), (t.removes xs).map x = if x ∈ xs then none else t.map x := by
  induction xs with
  | nil => intro t x; simp [TagMap.removes]
  | cons y xs ih =>
    intro t x
    have e : t.removes (y :: xs) = (t.remove y).removes xs := rfl
    rw [e, ih]
    simp only [TagMap.remove, List.mem_cons]
    grind

theorem entryGet_dels (xs : List Nat) : ∀ (es : List Entry) (x : Nat), entryGet (xs.foldl entryDel es) x = if x ∈ xs then none else entryGet es x := by
  induction xs with
  | nil => intro es x; simp
  | cons y xs ih =>
    intro es x
    rw [List.foldl_cons, ih, entryGet_del]
    simp only [List.mem_cons]
    grind

theorem expire_spec (now : Duration) (l : List (Duration × List Nat)) : ∀ (es : List Entry) (t : TagMap), l.Pairwise (fun x y => x.1 ≤ y.1) →
    (Sess.expire now l es t).1 = l.filter (fun g => !decide (g.1 + threeMinutes ≤ now)) ∧
    (∀ x, entryGet (Sess.expire now l es t).2.1 x = if x ∈ (l.filter fun g => decide (g.1 + threeMinutes ≤ now)).flatMap (·.2) then none else entryGet es x) ∧
    (∀ x, (Sess.expire now l es t).2.2.map x = if x ∈ (l.filter fun g => decide (g.1 + threeMinutes ≤ now)).flatMap (·.2) then none else t.map x) := by
  have hmax : prevTagMaxAge = threeMinutes := by decide
  induction l with
  | nil => intro es t _; simp [Sess.expire]
  | cons g l ih =>
    intro es t hp
    obtain ⟨h1, h2⟩ := List.pairwise_cons.mp hp
    obtain ⟨cr, ts⟩ := g
    simp only [Sess.expire, hmax]
    split
    · rename_i hlt
      have hall : ∀ y ∈ ((cr, ts) :: l), ¬ (y.1 + threeMinutes ≤ now) := by
        intro y hy
        have : cr ≤ y.1 := by
          rcases List.mem_cons.mp hy with rfl | hy
          · exact Nat.le_refl _
          · exact h1 y hy
        exact Nat.not_le.mpr (Nat.lt_of_lt_of_le hlt (Nat.add_le_add_right this _))
      have e1 : ((cr, ts) :: l).filter (fun g => decide (g.1 + threeMinutes ≤ now)) = [] := by
        rw [List.filter_eq_nil_iff]
        intro y hy
        simpa using hall y hy
      have e2 : ((cr, ts) :: l).filter (fun g => !decide (g.1 + threeMinutes ≤ now)) = (cr, ts) :: l := by
        rw [List.filter_eq_self]
        intro y hy
        simpa using hall y hy
      rw [e1, e2]
      simp
    · rename_i hge
      have hle : cr + threeMinutes ≤ now := Nat.not_lt.mp hge
      obtain ⟨i1, i2, i3⟩ := ih (ts.foldl entryDel es) (t.removes ts) h2
      refine ⟨?_, fun x => ?_, fun x => ?_⟩
      · rw [i1, List.filter_cons_of_neg (by simp [hle])]
      · rw [i2, entryGet_dels, List.filter_cons_of_pos (by simp [hle]), List.flatMap_cons]
        simp only [List.mem_append]
        grind
      · rw [i3, removes_map, List.filter_cons_of_pos (by simp [hle]), List.flatMap_cons]
        simp only [List.mem_append]
        grind

theorem maintainS_spec (now : Duration) {s : Sess} (t : TagMap) (h : s.expiring.Pairwise (fun x y => x.1 ≤ y.1)) :
    (∀ x, entryGet (s.maintain now t).1.entries x = if x ∈ replacedTags now s then none else entryGet s.entries x) ∧
    (∀ x, (s.maintain now t).2.map x = if x ∈ oldReplyTags now s ++ replacedTags now s then none else t.map x) ∧
    (s.maintain now t).1.nsr = (s.nsr.filter fun n => !decide (n.1 + threeMinutes ≤ now)) ∧
    (s.maintain now t).1.recv = s.recv ∧ (s.maintain now t).1.send = s.send := by
  have hmax : nsrMaxAge = threeMinutes := by decide
  simp only [Sess.maintain]
  cases hn : s.nsr with
  | none =>
    simp only [oldReplyTags, hn, List.nil_append]
    obtain ⟨i1, i2, i3⟩ := expire_spec now s.expiring s.entries t h
    exact ⟨i2, i3, rfl, trivial, trivial⟩
  | some n =>
    obtain ⟨cr, nsr, outs⟩ := n
    simp only [oldReplyTags, hn, hmax]
    by_cases hlt : now < cr + threeMinutes
    · have hle : ¬ cr + threeMinutes ≤ now := Nat.not_le.mpr hlt
      obtain ⟨i1, i2, i3⟩ := expire_spec now s.expiring s.entries t h
      simp only [if_pos hlt, if_neg hle, List.nil_append]
      exact ⟨i2, i3, by rw [hn]; simp [Option.filter, hle], trivial, trivial⟩
    · have hle : cr + threeMinutes ≤ now := Nat.not_lt.mp hlt
      simp only [if_neg hlt, if_pos hle]
      obtain ⟨i1, i2, i3⟩ := expire_spec now s.expiring s.entries (t.removes (nsr.map fun x => x.2.tag)) h
      refine ⟨i2, fun x => ?_, by simp [Option.filter, hle], trivial, trivial⟩
      rw [i3, removes_map, replacedTags]
      simp only [List.mem_append]
      grind

theorem maintainAll_spec (now : Duration) (d : Bytes) (l : Assoc Active) : ∀ t : TagMap, (∀ x ∈ l, x.2.s.expiring.Pairwise (fun x y => x.1 ≤ y.1)) →
    (∀ x, (maintainAll now l t).2.map x = if x ∈ l.flatMap (fun y => oldReplyTags now y.2.s ++ replacedTags now y.2.s) then none else t.map x) ∧
    (∀ a, l.get d = some a → ∃ t', (maintainAll now l t).1.get d = some { a with s := (a.s.maintain now t').1 }) := by
  induction l with
  | nil => intro t _; exact ⟨fun x => by simp [maintainAll], fun a h => by cases h⟩
  | cons y l ih =>
    intro t h
    obtain ⟨k, b⟩ := y
    obtain ⟨i1, i2⟩ := ih (b.s.maintain now t).2 fun z hz => h z (List.mem_cons_of_mem _ hz)
    obtain ⟨_, j2, _⟩ := maintainS_spec now t (h (k, b) List.mem_cons_self)
    simp only [maintainAll]
    refine ⟨fun x => ?_, fun a ha => ?_⟩
    · rw [i1, j2, List.flatMap_cons]
      simp only [List.mem_append]
      grind
    · simp only [Assoc.get, List.find?_cons] at ha i2 ⊢
      by_cases e : k = d
      · simp only [e, decide_true, Option.map_some, Option.some.injEq] at ha ⊢
        subst ha
        exact ⟨t, rfl⟩
      · simp only [e, decide_false] at ha ⊢
        exact i2 a ha

theorem foldl_destroy (l : Assoc Active) : ∀ (t : TagMap) (x : Nat), (l.foldl (fun t y => y.2.s.destroy t) t).map x =
    if x ∈ l.flatMap (fun y => y.2.s.entries.map (·.tag)) then none else t.map x := by
  induction l with
  | nil => intro t x; simp
  | cons y l ih =>
    intro t x
    rw [List.foldl_cons, ih, List.flatMap_cons, Sess.destroy, removes_map]
    simp only [List.mem_append]
    grind

theorem idle_iff (now : Duration) (a : Active) : a.idle now = true ↔ a.lastRecv + 600000000000 < now ∧ a.lastSent + 480000000000 < now := by
  have e1 : receiveTimeout = 600000000000 := by decide
  have e2 : sendTimeout = 480000000000 := by decide
  simp only [Active.idle, e1, e2, Bool.and_eq_true, decide_eq_true_eq]

/-- C127: after any sequence of calls with a clock that does not go back, maintenance removes from the tags that are watched for those of sessions idle
for too long, those of tag sets replaced three minutes ago and those for replies after three minutes, and no others. -/
theorem C127_tags (C : Cfg) (id sk ls : Bytes) (ops : List Op) (hf : Forward 0 ops) (now : Duration) (x : Nat) :
    let m := (Mgr.new C id sk ls).run C ops
    (m.maintain now).tags.map x = if x ∈ m.active.flatMap (fun y => forgotten now y.2) then none else m.tags.map x := by
  intro m
  have hord : Ord (lastTime 0 ops) m := ord_run C ops (fun x hx => by cases hx) hf
  simp only [Mgr.maintain]
  obtain ⟨h1, _⟩ := maintainAll_spec now [] (m.active.filter fun x => !x.2.idle now) ((m.active.filter fun x => x.2.idle now).foldl (fun t x => x.2.s.destroy t) m.tags)
    fun y hy => (hord y (List.mem_filter.mp hy).1).1
  rw [h1, foldl_destroy]
  have key : x ∈ m.active.flatMap (fun y => forgotten now y.2) ↔
      x ∈ (m.active.filter fun x => !x.2.idle now).flatMap (fun y => oldReplyTags now y.2.s ++ replacedTags now y.2.s) ∨
      x ∈ (m.active.filter fun x => x.2.idle now).flatMap (fun y => y.2.s.entries.map (·.tag)) := by
    generalize m.active = l
    induction l with
    | nil => simp
    | cons y l ih =>
      rw [List.flatMap_cons, List.mem_append, ih, forgotten]
      by_cases hi : y.2.idle now = true
      · rw [if_pos ((idle_iff now y.2).mp hi), List.filter_cons_of_neg (by simp [hi]), List.filter_cons_of_pos (by simp [hi]), List.flatMap_cons]
        simp only [List.mem_append]
        grind
      · rw [if_neg (fun h => hi ((idle_iff now y.2).mpr h)), List.filter_cons_of_pos (by simp [hi]), List.filter_cons_of_neg (by simp [hi]), List.flatMap_cons]
        simp only [List.mem_append]
        grind
  by_cases hx : x ∈ m.active.flatMap (fun y => forgotten now y.2)
  · rw [if_pos hx]
    rcases key.mp hx with h | h
    · rw [if_pos h]
    · rw [if_pos h]; simp
  · rw [if_neg hx, if_neg (fun h => hx (key.mpr (.inl h))), if_neg (fun h => hx (key.mpr (.inr h)))]

/-- C127: and a session that is not idle keeps everything else: its tag sets, the entries that were not replaced three minutes ago, and what it needs for
replies, for three minutes. -/
theorem C127_session (C : Cfg) (id sk ls : Bytes) (ops : List Op) (hf : Forward 0 ops) (now : Duration) (d : Bytes) (a : Active) :
    let m := (Mgr.new C id sk ls).run C ops
    m.active.get d = some a → ¬ (a.lastRecv + 600000000000 < now ∧ a.lastSent + 480000000000 < now) →
    ∃ s', (m.maintain now).active.get d = some { a with s := s' } ∧ s'.recv = a.s.recv ∧ s'.send = a.s.send ∧
      (∀ x, entryGet s'.entries x = if x ∈ replacedTags now a.s then none else entryGet a.s.entries x) ∧
      (∀ cr nsr outs, a.s.nsr = some (cr, nsr, outs) → s'.nsr = if cr + threeMinutes ≤ now then none else a.s.nsr) := by
  intro m ha hidle
  have hord : Ord (lastTime 0 ops) m := ord_run C ops (fun x hx => by cases hx) hf
  have hni : a.idle now = false := by
    cases h : a.idle now with
    | false => rfl
    | true => exact absurd ((idle_iff now a).mp h) hidle
  obtain ⟨_, hmem⟩ := Assoc.mem_of_get ha
  obtain ⟨_, h2⟩ := maintainAll_spec now d (m.active.filter fun x => !x.2.idle now) ((m.active.filter fun x => x.2.idle now).foldl (fun t x => x.2.s.destroy t) m.tags)
    fun y hy => (hord y (List.mem_filter.mp hy).1).1
  have hget : Assoc.get (m.active.filter fun x => !x.2.idle now) d = some a := get_filter_some m.active ha (by simp [hni])
  obtain ⟨t', ht⟩ := h2 a hget
  obtain ⟨j1, _, j3, j4, j5⟩ := maintainS_spec now t' (hord _ hmem).1
  refine ⟨_, ht, j4, j5, j1, ?_⟩
  intro cr nsr outs e
  rw [j3, e]
  by_cases hle : cr + threeMinutes ≤ now
  · simp [Option.filter, hle]
  · simp [Option.filter, hle]

/-- The first asks for a session, gets an answer and sends something in the session. -/
def upkeepOps : List Op :=
  [.addRemote idB (samplePrims.pub [3]), .encrypt askDraw idB [1, 2],
   .decrypt askDraw (match ((Mgr.new storeCfg idB [3] [4]).run storeCfg [.decrypt askDraw question]).encrypt storeCfg askDraw idA [7] with
    | (.ok r, _) => r
    | _ => []),
   .encrypt { askDraw with now := 1000000000 } idB [4]]

/-- The tags of its session that are forgotten after three minutes and after ten. -/
example : Forward 0 upkeepOps ∧ (((Mgr.new storeCfg idA [2] [3]).run storeCfg upkeepOps).active.map fun x =>
    ((forgotten (180000000000 : Nat) x.2).length, (forgotten (180999999999 : Nat) x.2).length, (forgotten (181000000000 : Nat) x.2).length, (forgotten (601000000001 : Nat) x.2).length)) = [(0, 0, 2, 4)] := by
  refine ⟨?_, by decide +kernel⟩
  exact ⟨Nat.le_refl 0, Nat.le_refl 0, Nat.zero_le _, trivial⟩

/-! ## C121: publishing the lease set -/

/-- What is sent when the lease set is published. -/
def published (v : Draw) (own leaseSet : Bytes) : List Block :=
  [.clove .databaseStore (v.ids 0) (v.epoch + 8 * 1000000000) .localNode (storeBuild own (.leaseSet2 leaseSet) .none), .ackRequest]

/-- C121 in part: publishing sends the newest lease set, in a message of its own that asks for an acknowledgment, if the peer may not have it and no
acknowledgment is awaited; and nothing otherwise. -/
theorem C121_publish_partial {C : Cfg} {m : Mgr} {d : Bytes} {c : Chain} {k i : Nat} {a : Active} (h : Sending C m d c k i a) (hi : i < ratchetThreshold)
    (v : Draw) (hok : ∀ b ∈ published v m.id m.leaseSet, b.Ok) :
    (a.leaseSet = none ∨ a.outAcks ≠ [] → m.publish C v d = (.ok none, m)) ∧
    (∀ ls, a.leaseSet = some ls → a.outAcks = [] → ∃ out a' m', m.publish C v d = (.ok (some out), m') ∧
      Genuine C c k i ((published v m.id m.leaseSet).map Block.onWire) out ∧ Sending C m' d c k (i + 1) a' ∧ a'.outAcks = [(k, i)] ∧ a'.leaseSet = some ls ∧
      (∀ v', m'.publish C v' d = (.ok none, m'))) := by
  obtain ⟨ha, h1, h2, h3, h4⟩ := h
  constructor
  · intro hn
    simp only [Mgr.publish, ha]
    rw [if_pos]
    rcases hn with hn | hn <;> simp [hn]
  · intro ls hl ho
    obtain ⟨plain, hb, hp⟩ := C22_garlic_message_roundtrip (published v m.id m.leaseSet) (List.cons_ne_nil _ _) hok
    have hi' : i < 20000 := hi
    have hlt : a.s.send.index + 1 < 2 ^ 16 := by omega
    have hn : a.s.send.next C.P = (some (c.entry C.P k i), { a.s.send with index := i + 1, chain := c.iter C.P (i + 1) }) := by
      rw [TagSet.next, if_pos hlt]
      simp only [Chain.entry, h1, h2, h3, Chain.iter]
    have hg : TagSet.tryGenerate C.P C.chk (v.keys 0) { a.s.send with index := i + 1, chain := c.iter C.P (i + 1) } =
        (.ok none, { a.s.send with index := i + 1, chain := c.iter C.P (i + 1) }) := by
      rw [TagSet.tryGenerate, if_pos]
      exact hi
    have hes : a.s.encrypt C v [storeClove v 0 m.id m.leaseSet, .ackRequest] =
        (.ok (k, i, Entry.seal C.P (c.entry C.P k i) plain), { a.s with send := { a.s.send with index := i + 1, chain := c.iter C.P (i + 1) } }) := by
      rw [show [storeClove v 0 m.id m.leaseSet, .ackRequest] = published v m.id m.leaseSet from rfl]
      simp only [Sess.encrypt, hn, hg, h4, Option.toList_none, List.map_nil, List.append_nil, hb]
      simp only [Chain.entry, h4]
    simp only [Mgr.publish, ha, hl, ho, List.isEmpty_nil, Option.isNone_some, Bool.not_true, Bool.or_self, Bool.false_eq_true, if_false, hes]
    refine ⟨_, _, _, rfl, ⟨plain, hp, ?_, rfl⟩, ⟨Assoc.get_put .., rfl, rfl, h3, h4⟩, rfl, ?_, ?_⟩
    · intro kind hk
      simp [published, Block.onWire] at hk
    · rfl
    · intro v'
      simp [Assoc.get_put, setPut]

/-- The sample session publishes its lease set after one was registered. -/
example (v : Draw) (hv : v.ids 0 < 2 ^ 32) (he : (v.epoch + 8 * 1000000000) / 1000000000 < 2 ^ 32) :
    ∃ a, Sending sampleCfg (sampleSender.registerLeaseSet [7]) idB sampleChain 0 0 a ∧ a.leaseSet = some [7] ∧ a.outAcks = [] ∧
      ∀ b ∈ published v (sampleSender.registerLeaseSet [7]).id (sampleSender.registerLeaseSet [7]).leaseSet, b.Ok :=
  ⟨_, ⟨rfl, rfl, rfl, rfl, rfl⟩, rfl, rfl, by
    intro b hb
    simp only [published, List.mem_cons, List.not_mem_nil, or_false] at hb
    rcases hb with rfl | rfl
    · exact ⟨hv, he, trivial, by decide⟩
    · trivial⟩

end Emissary.Ecies
