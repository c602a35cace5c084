import Verif.Model.Session
import Verif.Props.Ecies
/-!
# Properties of garlic sessions
-/
namespace Emissary.Ecies
open Emissary Emissary.I2np Emissary.Garlic
open Emissary.Ssu2 (Prims)
open Emissary.Ntcp2 (unle le)
open Emissary.Ratchet

/-! ## C54: tags are used once -/

/-- From one tag map to another only by inserting (the list `new`) and removing. -/
def Grows (t t' : TagMap) : Prop := ∃ new, t'.log = t.log ++ new ∧ ∀ x, t'.map x ≠ none → t.map x ≠ none ∨ x ∈ new

/-- As above, and nothing is inserted. -/
def Shrinks (t t' : TagMap) : Prop := t'.log = t.log ∧ ∀ x, t'.map x ≠ none → t.map x ≠ none

theorem Grows.refl (t : TagMap) : Grows t t := ⟨[], by simp, fun _ h => .inl h⟩

theorem Grows.trans {a b c : TagMap} (h : Grows a b) (h' : Grows b c) : Grows a c := by
  obtain ⟨n, hn, h⟩ := h
  obtain ⟨n', hn', h'⟩ := h'
  refine ⟨n ++ n', by rw [hn', hn, List.append_assoc], fun x hx => ?_⟩
  rcases h' x hx with hx | hx
  · rcases h x hx with hx | hx
    · exact .inl hx
    · exact .inr (List.mem_append_left _ hx)
  · exact .inr (List.mem_append_right _ hx)

theorem Shrinks.grows {a b : TagMap} (h : Shrinks a b) : Grows a b := ⟨[], by rw [h.1]; simp, fun x hx => .inl (h.2 x hx)⟩

theorem Shrinks.refl (a : TagMap) : Shrinks a a := ⟨rfl, fun _ h => h⟩

theorem Shrinks.trans {a b c : TagMap} (h : Shrinks a b) (h' : Shrinks b c) : Shrinks a c :=
  ⟨h'.1.trans h.1, fun x hx => h.2 x (h'.2 x hx)⟩

theorem grows_insert (t : TagMap) (d : Bytes) (x : Nat) : Grows t (t.insert d x) := by
  refine ⟨[x], rfl, fun y hy => ?_⟩
  simp only [TagMap.insert] at hy
  by_cases h : y = x
  · exact .inr (by simp [h])
  · rw [if_neg h] at hy; exact .inl hy

theorem grows_inserts (d : Bytes) (xs : List Nat) : ∀ t : TagMap, Grows t (t.inserts d xs) := by
  induction xs with
  | nil => intro t; exact .refl t
  | cons x xs ih => intro t; exact (grows_insert t d x).trans (ih _)

theorem shrinks_remove (t : TagMap) (x : Nat) : Shrinks t (t.remove x) := by
  refine ⟨rfl, fun y hy => ?_⟩
  simp only [TagMap.remove] at hy
  by_cases h : y = x
  · rw [if_pos h] at hy; exact absurd rfl hy
  · rw [if_neg h] at hy; exact hy

theorem shrinks_removes (xs : List Nat) : ∀ t : TagMap, Shrinks t (t.removes xs) := by
  induction xs with
  | nil => intro t; exact .refl t
  | cons x xs ih => intro t; exact (shrinks_remove t x).trans (ih _)

theorem grows_advanceOut (C : Cfg) (v : Draw) (c : KeyCtx) (own remote ls msg : Bytes) (t : TagMap) (p : PState) :
    Grows t (p.advanceOut C v c own remote ls msg t).2.2 := by
  cases p <;> simp only [PState.advanceOut] <;> repeat' split
  all_goals first | exact .refl t | exact grows_inserts ..

theorem grows_advanceIn (C : Cfg) (remote : Bytes) (tag : Nat) (msg : Bytes) (t : TagMap) (p : PState) :
    Grows t (p.advanceIn C remote tag msg t).2.2 := by
  cases p <;> simp only [PState.advanceIn] <;> repeat' split
  all_goals first | exact .refl t | exact grows_inserts ..

theorem grows_handleKey (C : Cfg) (v : Draw) (remote sk : Bytes) (k : NextKey) (s : Sess) (t : TagMap) :
    Grows t (s.handleKey C v remote sk k t).2.2 := by
  cases k <;> simp only [Sess.handleKey] <;> repeat' split
  all_goals first | exact .refl t | exact grows_inserts .. | exact (grows_inserts ..).trans (grows_inserts ..)

theorem grows_handleKeys (C : Cfg) (v : Draw) (remote : Bytes) (bs : List Block) : ∀ (i : Nat) (s : Sess) (t : TagMap),
    Grows t (s.handleKeys C v remote i bs t).2.2 := by
  induction bs with
  | nil => intro i s t; exact .refl t
  | cons b bs ih =>
    intro i s t
    cases b with
    | nextKey k =>
      have h := grows_handleKey C v remote (v.keys i) k s t
      simp only [Sess.handleKeys]
      split
      · rename_i h1; rw [h1] at h; exact h.trans (ih ..)
      · rename_i h1; rw [h1] at h; exact h
      · rename_i h1; rw [h1] at h; exact h
    | _ => exact ih ..

theorem grows_decryptS (C : Cfg) (v : Draw) (remote : Bytes) (tag : Nat) (msg : Bytes) (s : Sess) (t : TagMap) :
    Grows t (s.decrypt C v remote tag msg t).2.2 := by
  simp only [Sess.decrypt]
  split
  · exact .refl t
  · rename_i e _
    have h1 : Grows t (({ s with entries := entryDel s.entries tag } : Sess).refill C remote t).2 := by
      simp only [Sess.refill]; split
      · exact .refl t
      · exact grows_insert ..
    generalize ({ s with entries := entryDel s.entries tag } : Sess).refill C remote t = p at *
    split
    · exact h1
    · split
      · exact h1
      · rename_i bs _
        have h2 := grows_handleKeys C v remote bs 0 p.1 p.2
        split <;> (rename_i h3; rw [h3] at h2; exact h1.trans h2)

theorem shrinks_expire (now : Duration) (l : List (Duration × List Nat)) : ∀ (es : List Entry) (t : TagMap), Shrinks t (Sess.expire now l es t).2.2 := by
  induction l with
  | nil => intro es t; exact .refl t
  | cons x l ih =>
    intro es t
    simp only [Sess.expire]
    split
    · exact .refl t
    · exact (shrinks_removes ..).trans (ih ..)

theorem shrinks_maintainS (now : Duration) (s : Sess) (t : TagMap) : Shrinks t (s.maintain now t).2 := by
  simp only [Sess.maintain]
  split
  · exact shrinks_expire ..
  · split
    · exact shrinks_expire ..
    · exact (shrinks_removes ..).trans (shrinks_expire ..)

theorem shrinks_maintainAll (now : Duration) (l : Assoc Active) : ∀ t : TagMap, Shrinks t (maintainAll now l t).2 := by
  induction l with
  | nil => intro t; exact .refl t
  | cons x l ih => intro t; exact (shrinks_maintainS ..).trans (ih _)

theorem shrinks_destroy (l : Assoc Active) : ∀ t : TagMap, Shrinks t (l.foldl (fun t x => x.2.s.destroy t) t) := by
  induction l with
  | nil => intro t; exact .refl t
  | cons x l ih => intro t; exact (shrinks_removes ..).trans (ih _)

theorem shrinks_maintain (now : Duration) (m : Mgr) : Shrinks m.tags (m.maintain now).tags :=
  (shrinks_destroy ..).trans (shrinks_maintainAll ..)

theorem shrinks_removeSession (m : Mgr) (d : Bytes) : Shrinks m.tags (m.removeSession d).tags := by
  simp only [Mgr.removeSession]
  split
  · exact .refl _
  · exact shrinks_removes ..

theorem blocks_tags (d : Bytes) (tag : Nat × Nat) (bs : List Block) : ∀ m : Mgr, (Mgr.blocks d tag bs m).2.2.tags = m.tags := by
  induction bs with
  | nil => intro m; rfl
  | cons b bs ih =>
    intro m
    cases b <;> simp only [Mgr.blocks] <;> repeat' split
    all_goals simp only [ih]

theorem finish_tags (C : Cfg) (m : Mgr) (d : Bytes) (tag : Nat × Nat) (plain : Bytes) : (m.finish C d tag plain).2.tags = m.tags := by
  simp only [Mgr.finish]
  split
  · rfl
  · split <;> exact blocks_tags ..

theorem decryptNew_tags (C : Cfg) (v : Draw) (m : Mgr) (msg : Bytes) : (m.decryptNew C v msg).2.tags = m.tags := by
  simp only [Mgr.decryptNew]
  repeat' split
  all_goals rfl

theorem grows_decryptTagged (C : Cfg) (v : Draw) (m : Mgr) (d : Bytes) (tag : Nat) (msg : Bytes) :
    Grows m.tags (m.decryptTagged C v d tag msg).2.tags := by
  simp only [Mgr.decryptTagged]
  split
  · rename_i a _
    have h := grows_decryptS C v d tag msg a.s m.tags
    split <;> (rename_i h1; rw [h1] at h)
    · exact .refl _
    · exact h
    · exact h.trans (shrinks_removeSession _ d).grows
    · exact h
  · split
    · rename_i p _
      have h := grows_advanceIn C d tag msg m.tags p.state
      split <;> (rename_i h1; rw [h1] at h)
      all_goals first | exact .refl _ | exact h
    · exact .refl _

theorem grows_encrypt (C : Cfg) (v : Draw) (m : Mgr) (d msg : Bytes) : Grows m.tags (m.encrypt C v d msg).2.tags := by
  simp only [Mgr.encrypt]
  split
  · split
    · exact .refl _
    · exact (shrinks_removeSession _ d).grows
    · exact .refl _
    · exact .refl _
  · split
    · rename_i p _
      have h := grows_advanceOut C v m.ctx m.id d m.leaseSet msg m.tags p.state
      split <;> (rename_i h1; rw [h1] at h)
      all_goals first | exact .refl _ | exact h
    · split
      · exact .refl _
      · split
        · exact .refl _
        · rename_i o _ _
          simp only [Pending.outbound]
          cases h : o.replyTags C.P C.T with
          | none => exact .refl _
          | some es => exact grows_inserts ..

theorem grows_lookup (C : Cfg) (v : Draw) (m : Mgr) (msg : Bytes) {tag : Nat} {d : Bytes} (ht : garlicTag msg = some tag)
    (hd : m.tags.map tag = some d) : Grows (m.tags.remove tag) (m.decrypt C v msg).2.tags := by
  simp only [Mgr.decrypt, ht, hd]
  have h := grows_decryptTagged C v { m with tags := m.tags.remove tag } d tag msg
  split <;> (rename_i h1; rw [h1] at h)
  · exact h
  · exact h
  · rw [finish_tags]; exact h

theorem decrypt_unknown_tags (C : Cfg) (v : Draw) (m : Mgr) (msg : Bytes) {tag : Nat} (ht : garlicTag msg = some tag)
    (hd : m.tags.map tag = none) : (m.decrypt C v msg).2.tags = m.tags := by
  simp only [Mgr.decrypt, ht, hd]
  have h := decryptNew_tags C v m msg
  split <;> (rename_i h1; rw [h1] at h)
  · exact h
  · rw [finish_tags]; exact h

theorem grows_decrypt (C : Cfg) (v : Draw) (m : Mgr) (msg : Bytes) : Grows m.tags (m.decrypt C v msg).2.tags := by
  cases ht : garlicTag msg with
  | none => simp only [Mgr.decrypt, ht]; exact .refl _
  | some tag =>
    cases hd : m.tags.map tag with
    | none => rw [decrypt_unknown_tags C v m msg ht hd]; exact .refl _
    | some d => exact (shrinks_remove m.tags tag).grows.trans (grows_lookup C v m msg ht hd)

theorem grows_publish (C : Cfg) (v : Draw) (m : Mgr) (d : Bytes) : Grows m.tags (m.publish C v d).2.tags := by
  simp only [Mgr.publish]
  repeat' split
  all_goals exact .refl _

theorem grows_step (C : Cfg) (m : Mgr) (o : Op) : Grows m.tags (m.step C o).2.tags := by
  cases o with
  | addRemote => exact .refl _
  | registerLeaseSet => exact .refl _
  | encrypt => exact grows_encrypt ..
  | decrypt => exact grows_decrypt ..
  | publish => exact grows_publish ..
  | maintain => exact (shrinks_maintain ..).grows

/-- A history of calls. -/
def Mgr.run (C : Cfg) (m : Mgr) (ops : List Op) : Mgr := ops.foldl (fun m o => (m.step C o).2) m

theorem grows_run (C : Cfg) (ops : List Op) : ∀ m : Mgr, Grows m.tags (m.run C ops).tags := by
  induction ops with
  | nil => intro m; exact .refl _
  | cons o ops ih => intro m; exact (grows_step C m o).trans (ih _)

/-- How often the tag `x` of a received message was known. -/
def lookups (C : Cfg) (x : Nat) : Mgr → List Op → Nat
  | _, [] => 0
  | m, o :: ops => (match o with
      | .decrypt _ msg => if garlicTag msg = some x ∧ m.tags.map x ≠ none then 1 else 0
      | _ => 0) + lookups C x (m.step C o).2 ops

def known (t : TagMap) (x : Nat) : Nat := if t.map x ≠ none then 1 else 0

theorem known_pos {t : TagMap} {x : Nat} (h : t.map x ≠ none) : known t x = 1 := if_pos h

theorem known_zero {t : TagMap} {x : Nat} (h : t.map x = none) : known t x = 0 := if_neg (by simp [h])

theorem grows_count {t t' : TagMap} (h : Grows t t') (x : Nat) :
    known t' x + t.log.count x ≤ known t x + t'.log.count x := by
  obtain ⟨new, hn, h⟩ := h
  rw [hn, List.count_append]
  by_cases h1 : t'.map x ≠ none
  · rw [known_pos h1]
    rcases h x h1 with h2 | h2
    · rw [known_pos h2]; omega
    · have := List.count_pos_iff.mpr h2; omega
  · rw [known_zero (Classical.not_not.mp h1)]; omega

theorem lookups_le (C : Cfg) (x : Nat) (ops : List Op) : ∀ m : Mgr,
    lookups C x m ops + known (m.run C ops).tags x + m.tags.log.count x ≤ known m.tags x + (m.run C ops).tags.log.count x := by
  induction ops with
  | nil => intro m; simp only [lookups, Mgr.run, List.foldl_nil]; omega
  | cons o ops ih =>
    intro m
    have h := ih (m.step C o).2
    have hg := grows_count (grows_step C m o) x
    simp only [Mgr.run, List.foldl_cons] at h ⊢
    cases o with
    | decrypt v msg =>
      simp only [lookups]
      by_cases hx : garlicTag msg = some x ∧ m.tags.map x ≠ none
      · rw [if_pos hx]
        cases hd : m.tags.map x with
        | none => exact absurd hd hx.2
        | some d =>
          have h2 := grows_count (grows_lookup C v m msg hx.1 hd) x
          have e : known (m.tags.remove x) x = 0 := known_zero (by simp [TagMap.remove])
          have e2 : (m.tags.remove x).log = m.tags.log := rfl
          have e3 : (m.step C (.decrypt v msg)).2 = (m.decrypt C v msg).2 := rfl
          rw [e, e2] at h2
          rw [e3] at h ⊢
          rw [known_pos hx.2]
          omega
      · rw [if_neg hx]; omega
    | _ => simp only [lookups]; omega

/-- C54: a tag is never found more often than it was generated. -/
theorem C54_counts (C : Cfg) (id sk ls : Bytes) (ops : List Op) (x : Nat) :
    lookups C x (Mgr.new C id sk ls) ops ≤ ((Mgr.new C id sk ls).run C ops).tags.log.count x := by
  have h := lookups_le C x ops (Mgr.new C id sk ls)
  rw [known_zero (by simp [Mgr.new, TagMap.new] : (Mgr.new C id sk ls).tags.map x = none)] at h
  omega

theorem lookups_append (C : Cfg) (x : Nat) (a b : List Op) : ∀ m : Mgr, lookups C x m (a ++ b) = lookups C x m a + lookups C x (m.run C a) b := by
  induction a with
  | nil => intro m; simp [lookups, Mgr.run]
  | cons o a ih =>
    intro m
    simp only [List.cons_append, lookups, ih, Mgr.run, List.foldl_cons]
    omega

/-- The key context never changes. -/
theorem removeSession_ctx (m : Mgr) (d : Bytes) : (m.removeSession d).ctx = m.ctx := by
  simp only [Mgr.removeSession]; split <;> rfl

theorem blocks_ctx (d : Bytes) (tag : Nat × Nat) (bs : List Block) : ∀ m : Mgr, (Mgr.blocks d tag bs m).2.2.ctx = m.ctx := by
  induction bs with
  | nil => intro m; rfl
  | cons b bs ih =>
    intro m
    cases b <;> simp only [Mgr.blocks] <;> repeat' split
    all_goals simp only [ih]

theorem finish_ctx (C : Cfg) (m : Mgr) (d : Bytes) (tag : Nat × Nat) (plain : Bytes) : (m.finish C d tag plain).2.ctx = m.ctx := by
  simp only [Mgr.finish]
  split
  · rfl
  · split <;> exact blocks_ctx ..

theorem decryptNew_ctx (C : Cfg) (v : Draw) (m : Mgr) (msg : Bytes) : (m.decryptNew C v msg).2.ctx = m.ctx := by
  simp only [Mgr.decryptNew]
  repeat' split
  all_goals rfl

theorem decryptTagged_ctx (C : Cfg) (v : Draw) (m : Mgr) (d : Bytes) (tag : Nat) (msg : Bytes) : (m.decryptTagged C v d tag msg).2.ctx = m.ctx := by
  simp only [Mgr.decryptTagged]
  repeat' split
  all_goals first | rfl | exact removeSession_ctx ..

theorem step_ctx (C : Cfg) (m : Mgr) (o : Op) : (m.step C o).2.ctx = m.ctx := by
  cases o with
  | encrypt v d msg =>
    simp only [Mgr.step, Mgr.encrypt]
    repeat' split
    all_goals first | rfl | exact removeSession_ctx ..
  | publish v d =>
    simp only [Mgr.step, Mgr.publish]
    repeat' split
    all_goals rfl
  | decrypt v msg =>
    simp only [Mgr.step, Mgr.decrypt]
    split
    · rfl
    · split
      · have h := decryptNew_ctx C v m msg
        split <;> (rename_i h1; rw [h1] at h)
        · exact h
        · rw [finish_ctx]; exact h
      · rename_i tag _ _ d _
        have h := decryptTagged_ctx C v { m with tags := m.tags.remove tag } d tag msg
        split <;> (rename_i h1; rw [h1] at h)
        · exact h
        · exact h
        · rw [finish_ctx]; exact h
  | _ => rfl

/-- C54: whatever happened before and between, a second message with a tag that was already used is not read with it: unless it can be read
as a request for a new session, it is refused and changes nothing. (If the tags that were generated are different.) -/
theorem C54_single_use (C : Cfg) (id sk ls : Bytes) (before between : List Op) (v v' : Draw) (msg msg' : Bytes) (tag : Nat) :
    let m := (Mgr.new C id sk ls).run C before
    let m' := (m.step C (.decrypt v msg)).2.run C between
    garlicTag msg = some tag → garlicTag msg' = some tag → m.tags.map tag ≠ none → m'.tags.log.Nodup →
      m'.tags.map tag = none ∧
      ∀ e, (KeyCtx.new C.P sk).accept C.P C.E msg' = .error e → m'.decrypt C v' msg' = (.error e, m') := by
  intro m m' ht ht' hm hn
  have hrun : m' = (Mgr.new C id sk ls).run C (before ++ (.decrypt v msg :: between)) := by
    simp only [m', m, Mgr.run, List.foldl_append, List.foldl_cons]
  have key : m'.tags.map tag = none := by
    by_cases h : m'.tags.map tag = none
    · exact h
    exfalso
    have h1 := lookups_le C tag (before ++ (.decrypt v msg :: between)) (Mgr.new C id sk ls)
    have h2 : 1 ≤ lookups C tag (Mgr.new C id sk ls) (before ++ (.decrypt v msg :: between)) := by
      rw [lookups_append]
      simp only [lookups]
      rw [if_pos ⟨ht, hm⟩]; omega
    rw [← hrun, known_pos h, known_zero (by simp [Mgr.new, TagMap.new] : (Mgr.new C id sk ls).tags.map tag = none)] at h1
    have h3 := List.nodup_iff_count.mp hn tag
    omega
  refine ⟨key, fun e he => ?_⟩
  have hc : m'.ctx = KeyCtx.new C.P sk := by
    rw [hrun]
    generalize before ++ (.decrypt v msg :: between) = ops
    have : ∀ m0 : Mgr, (m0.run C ops).ctx = m0.ctx := by
      induction ops with
      | nil => intro m0; rfl
      | cons o ops ih => intro m0; exact (ih _).trans (step_ctx C m0 o)
    exact this _
  simp only [Mgr.decrypt, ht', key, Mgr.decryptNew, hc, he]

/-- A manager that has asked `[9]` for a session. -/
def askCfg : Cfg := { P := samplePrims, E := sampleE, T := ⟨3, 4, 1⟩, chk := false, readStore := fun _ => none }
def askDraw : Draw := { now := 0, epoch := 0, ids := id, esk := [5], keys := fun i => [i.toUInt8] }
def askOps : List Op := [.addRemote [9] (samplePrims.pub [3]), .encrypt askDraw [9] [1, 2]]

/-- It knows three tags, all different, and a message with the first of them meets the hypotheses of `C54_single_use`. -/
example : ((Mgr.new askCfg [1] [2] [3]).run askCfg askOps).tags.log.length = 3 ∧
    (((Mgr.new askCfg [1] [2] [3]).run askCfg askOps).step askCfg (.decrypt askDraw (be 4 9 ++ le 8 (((Mgr.new askCfg [1] [2] [3]).run askCfg askOps).tags.log.headD 0) ++ [0]))).2.tags.log.Nodup ∧
    ((Mgr.new askCfg [1] [2] [3]).run askCfg askOps).tags.map (((Mgr.new askCfg [1] [2] [3]).run askCfg askOps).tags.log.headD 0) = some [9] ∧
    garlicTag (be 4 9 ++ le 8 (((Mgr.new askCfg [1] [2] [3]).run askCfg askOps).tags.log.headD 0) ++ [0]) =
      some (((Mgr.new askCfg [1] [2] [3]).run askCfg askOps).tags.log.headD 0) := by decide +kernel

end Emissary.Ecies
