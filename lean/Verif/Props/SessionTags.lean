import Verif.Props.SessionUpkeep
import Mathlib.Data.List.Perm.Basic
/-!
# Garlic sessions: every tag that is waited for is watched for (C265)
-/
namespace Emissary.Ecies
open Emissary Emissary.I2np Emissary.Garlic
open Emissary.Ssu2 (Prims)
open Emissary.Ntcp2 (unle le)
open Emissary.Ratchet

/-! ## Specification -/

/-- The tags with which a session could read a message: those of its tag sets and those for replies to its requests. -/
def Sess.readable (s : Sess) : List Nat :=
  s.entries.map (·.tag) ++ (match s.nsr with | some (_, nsr, _) => nsr.map (·.2.tag) | none => [])

/-- The same of a session that is being opened. -/
def PState.readable : PState → List Nat
  | .inbound _ entries => entries.map (·.tag)
  | .awaitNsr _ _ nsr entries => entries.map (·.tag) ++ nsr.map (·.2.tag)
  | .awaitEs _ _ _ _ nsr entries => entries.map (·.tag) ++ nsr.map (·.2.tag)
  | .poisoned => []

/-- A session with `d`, open or being opened, could read a message with the tag. -/
def Waits (m : Mgr) (d : Bytes) (x : Nat) : Prop :=
  (∃ a, m.active.get d = some a ∧ x ∈ a.s.readable) ∨ (∃ p, m.pending.get d = some p ∧ x ∈ p.state.readable)

/-- A call that ended the program. -/
def Ret.aborted : Ret → Bool
  | .sent .panic => true
  | .received .panic => true
  | .published .panic => true
  | _ => false

/-- No call ended the program. -/
def Calm (C : Cfg) : Mgr → List Op → Prop
  | _, [] => True
  | m, o :: ops => (m.step C o).1.aborted = false ∧ Calm C (m.step C o).2 ops

/-! ## Lists of entries -/

theorem tag_entryPuts {x : Nat} (new : List Entry) : ∀ es : List Entry, x ∈ (entryPuts es new).map (·.tag) → x ∈ es.map (·.tag) ∨ x ∈ new.map (·.tag) := by
  induction new with
  | nil => intro es h; exact .inl h
  | cons e new ih =>
    intro es h
    rcases ih _ h with h | h
    · simp only [entryPut, entryDel, List.map_append, List.mem_append, List.map_cons, List.map_nil, List.mem_singleton] at h
      rcases h with h | h
      · obtain ⟨y, hy, e⟩ := List.mem_map.1 h
        exact .inl (List.mem_map.2 ⟨y, (List.mem_filter.1 hy).1, e⟩)
      · exact .inr (by simp [h])
    · exact .inr (by simp [h])

theorem tag_nsrPuts {x : Nat} (i : Nat) (new : List Entry) : ∀ es : NsrEntries, x ∈ (nsrPuts es i new).map (·.2.tag) → x ∈ es.map (·.2.tag) ∨ x ∈ new.map (·.tag) := by
  induction new with
  | nil => intro es h; exact .inl h
  | cons e new ih =>
    intro es h
    rcases ih _ h with h | h
    · simp only [nsrDel, List.map_append, List.mem_append, List.map_cons, List.map_nil, List.mem_singleton] at h
      rcases h with h | h
      · obtain ⟨y, hy, e⟩ := List.mem_map.1 h
        exact .inl (List.mem_map.2 ⟨y, (List.mem_filter.1 hy).1, e⟩)
      · exact .inr (by simp [h])
    · exact .inr (by simp [h])

theorem tag_entryDel {x t : Nat} {es : List Entry} (h : x ∈ (entryDel es t).map (·.tag)) : x ∈ es.map (·.tag) ∧ x ≠ t := by
  obtain ⟨y, hy, rfl⟩ := List.mem_map.1 h
  have := List.mem_filter.1 hy
  exact ⟨List.mem_map.2 ⟨y, this.1, rfl⟩, by simpa using this.2⟩

theorem tag_nsrDel {x t : Nat} {es : NsrEntries} (h : x ∈ (nsrDel es t).map (·.2.tag)) : x ∈ es.map (·.2.tag) ∧ x ≠ t := by
  obtain ⟨y, hy, rfl⟩ := List.mem_map.1 h
  have := List.mem_filter.1 hy
  exact ⟨List.mem_map.2 ⟨y, this.1, rfl⟩, by simpa using this.2⟩

theorem tag_entryDels {x : Nat} (ts : List Nat) : ∀ {es : List Entry}, x ∈ (ts.foldl entryDel es).map (·.tag) → x ∈ es.map (·.tag) ∧ x ∉ ts := by
  induction ts with
  | nil => intro es h; exact ⟨h, by simp⟩
  | cons t ts ih =>
    intro es h
    obtain ⟨h1, h2⟩ := ih h
    obtain ⟨h3, h4⟩ := tag_entryDel h1
    exact ⟨h3, by simp [h4, h2]⟩

theorem entryGet_none {es : List Entry} {x : Nat} (h : entryGet es x = none) : x ∉ es.map (·.tag) := by
  intro hx
  obtain ⟨y, hy, e⟩ := List.mem_map.1 hx
  have := List.find?_eq_none.1 h y hy
  simp [e] at this

theorem nsrGet_none {es : NsrEntries} {x : Nat} (h : nsrGet es x = none) : x ∉ es.map (·.2.tag) := by
  intro hx
  obtain ⟨y, hy, e⟩ := List.mem_map.1 hx
  have := List.find?_eq_none.1 h y hy
  simp [e] at this

theorem inserts_log (d : Bytes) (xs : List Nat) : ∀ t : TagMap, (t.inserts d xs).log = t.log ++ xs := by
  induction xs with
  | nil => intro t; simp [TagMap.inserts]
  | cons x xs ih => intro t; exact (ih _).trans (by simp [TagMap.insert])

theorem inserts_at (d : Bytes) (x : Nat) (xs : List Nat) : ∀ t : TagMap, (t.inserts d xs).map x = if x ∈ xs then some d else t.map x := by
  induction xs with
  | nil => intro t; simp [TagMap.inserts]
  | cons y xs ih =>
    intro t
    refine (ih _).trans ?_
    simp only [TagMap.insert, List.mem_cons]
    grind

/-! ## One session -/

def Live (x : Nat) (s : Sess) : Prop := x ∈ s.entries.map (·.tag)
def Old (x : Nat) (s : Sess) : Prop := ∃ g ∈ s.expiring, x ∈ g.2
def Rep (x : Nat) (s : Sess) : Prop := ∃ c n o, s.nsr = some (c, n, o) ∧ x ∈ n.map (·.2.tag)

/-- What a call to a session with `d` may do with the tag `x`. -/
structure SS (x : Nat) (d : Bytes) (t : TagMap) (s : Sess) (t' : TagMap) (s' : Sess) : Prop where
  rep : Rep x s' → Rep x s
  mono : t.log.count x ≤ t'.log.count x
  same : t'.log.count x = t.log.count x → t'.map x = t.map x ∧ (Live x s' → Live x s) ∧ (Old x s' → Old x s ∨ Live x s)
  more : t.log.count x < t'.log.count x → t'.map x = some d

theorem SS.trans {x : Nat} {d : Bytes} {t t' t'' : TagMap} {s s' s'' : Sess} (h : SS x d t s t' s') (g : SS x d t' s' t'' s'') : SS x d t s t'' s'' where
  rep := h.rep ∘ g.rep
  mono := Nat.le_trans h.mono g.mono
  same e := by
    have := h.mono; have := g.mono
    obtain ⟨a1, a2, a3⟩ := h.same (by omega)
    obtain ⟨b1, b2, b3⟩ := g.same (by omega)
    exact ⟨b1.trans a1, a2 ∘ b2, fun o => (b3 o).elim a3 fun l => .inr (a2 l)⟩
  more e := by
    have := h.mono; have := g.mono
    by_cases k : t'.log.count x < t''.log.count x
    · exact g.more k
    · rw [(g.same (by omega)).1]; exact h.more (by omega)

theorem SS.keep {x : Nat} {d : Bytes} {t : TagMap} {s s' : Sess} (e1 : s'.entries = s.entries) (e2 : s'.expiring = s.expiring) (e3 : s'.nsr = s.nsr) :
    SS x d t s t s' where
  rep h := by rw [Rep, e3] at h; exact h
  mono := Nat.le_refl _
  same _ := ⟨rfl, by rw [Live, e1]; exact id, by rw [Old, e2]; exact .inl⟩
  more h := absurd h (Nat.lt_irrefl _)

theorem SS.add {x : Nat} {d : Bytes} {t : TagMap} {s s' : Sess} (new : List Entry) (e1 : s'.entries = entryPuts s.entries new)
    (e2 : ∀ g ∈ s'.expiring, g ∈ s.expiring ∨ g.2 = s'.entries.map (·.tag)) (e3 : s'.nsr = s.nsr) :
    SS x d t s (t.inserts d (new.map (·.tag))) s' := by
  have hc : (t.inserts d (new.map (·.tag))).log.count x = t.log.count x + (new.map (·.tag)).count x := by rw [inserts_log, List.count_append]
  refine ⟨fun h => by rw [Rep, e3] at h; exact h, by omega, fun e => ?_, fun e => ?_⟩
  · have hn : x ∉ new.map (·.tag) := by rw [← List.count_eq_zero]; omega
    have hl : Live x s' → Live x s := fun h => by
      rw [Live, e1] at h
      exact (tag_entryPuts new _ h).resolve_right hn
    refine ⟨by rw [inserts_at, if_neg hn], hl, ?_⟩
    rintro ⟨g, hg, hx⟩
    rcases e2 g hg with h | h
    · exact .inl ⟨g, h, hx⟩
    · exact .inr (hl (by rw [h] at hx; exact hx))
  · have hn : x ∈ new.map (·.tag) := by rw [← List.count_pos_iff]; omega
    rw [inserts_at, if_pos hn]

theorem ss_handleKey (x : Nat) (C : Cfg) (v : Draw) (d sk : Bytes) (k : NextKey) (s : Sess) (t : TagMap) :
    SS x d t s (s.handleKey C v d sk k t).2.2 (s.handleKey C v d sk k t).2.1 := by
  cases k with
  | reverse => 
    simp only [Sess.handleKey]
    split <;> exact .keep rfl rfl rfl
  | forward =>
    simp only [Sess.handleKey]
    split
    · have h1 : ∀ r, SS x d t s (t.inserts d ((TagSet.upTo C.P C.T.extra s.recv).1.map (·.tag)))
          { s with expiring := s.expiring ++ [(v.now, (entryPuts s.entries (TagSet.upTo C.P C.T.extra s.recv).1).map (·.tag))],
                   entries := entryPuts s.entries (TagSet.upTo C.P C.T.extra s.recv).1, recv := r } := by
        intro r
        refine .add _ rfl ?_ rfl
        intro g hg
        rcases List.mem_append.1 hg with hg | hg
        · exact .inl hg
        · rw [List.mem_singleton.1 hg]; exact .inr rfl
      split
      · exact h1 _
      · exact h1 _
      · split
        · exact h1 _
        · refine (h1 s.recv).trans (.add _ rfl (fun g hg => .inl hg) rfl)
    · split <;> exact .keep rfl rfl rfl

theorem ss_handleKeys (x : Nat) (C : Cfg) (v : Draw) (d : Bytes) (bs : List Block) : ∀ (i : Nat) (s : Sess) (t : TagMap),
    SS x d t s (s.handleKeys C v d i bs t).2.2 (s.handleKeys C v d i bs t).2.1 := by
  induction bs with
  | nil => intro i s t; exact .keep rfl rfl rfl
  | cons b bs ih =>
    intro i s t
    cases b with
    | nextKey k =>
      have h := ss_handleKey x C v d (v.keys i) k s t
      simp only [Sess.handleKeys]
      split
      · rename_i h1; rw [h1] at h; exact h.trans (ih ..)
      · rename_i h1; rw [h1] at h; exact h
      · rename_i h1; rw [h1] at h; exact h
    | _ => exact ih ..

theorem ss_refill (x : Nat) (C : Cfg) (d : Bytes) (s : Sess) (t : TagMap) : SS x d t s (s.refill C d t).2 (s.refill C d t).1 := by
  simp only [Sess.refill]
  split
  · exact .keep rfl rfl rfl
  · next n _ _ => exact .add [n] rfl (fun g hg => .inl hg) rfl

theorem ss_nsr (C : Cfg) (tag : Nat) (msg : Bytes) (s : Sess) :
    (s.decryptNsr C tag msg).2.entries = s.entries ∧ (s.decryptNsr C tag msg).2.expiring = s.expiring ∧
    (∀ x, Rep x (s.decryptNsr C tag msg).2 → Rep x s ∧ x ≠ tag) := by
  simp only [Sess.decryptNsr]
  split
  · next h => exact ⟨rfl, rfl, fun x ⟨_, _, _, e, _⟩ => by rw [h] at e; cases e⟩
  · next c n o h =>
    split
    · next h2 =>
      refine ⟨rfl, rfl, fun x hx => ⟨hx, ?_⟩⟩
      obtain ⟨_, _, _, e, hm⟩ := hx
      rw [h] at e
      cases e
      rintro rfl
      exact nsrGet_none h2 hm
    · have key : ∀ s' : Sess, s'.nsr = some (c, nsrDel n tag, o) → ∀ x, Rep x s' → Rep x s ∧ x ≠ tag := by
        rintro s' e x ⟨_, _, _, e', hm⟩
        rw [e] at e'
        cases e'
        exact ⟨⟨c, n, o, h, (tag_nsrDel hm).1⟩, (tag_nsrDel hm).2⟩
      repeat' split
      all_goals exact ⟨rfl, rfl, key _ rfl⟩

/-- A message whose tag is not `x`. -/
theorem ss_decrypt (x : Nat) (C : Cfg) (v : Draw) (d : Bytes) (tag : Nat) (msg : Bytes) (s : Sess) (t : TagMap) :
    SS x d t s (s.decrypt C v d tag msg t).2.2 (s.decrypt C v d tag msg t).2.1 := by
  simp only [Sess.decrypt]
  split
  · obtain ⟨e1, e2, e3⟩ := ss_nsr C tag msg s
    exact ⟨fun h => (e3 x h).1, Nat.le_refl _, fun _ => ⟨rfl, by rw [Live, e1]; exact id, by rw [Old, e2]; exact .inl⟩, fun h => absurd h (Nat.lt_irrefl _)⟩
  · have h0 : SS x d t s t { s with entries := entryDel s.entries tag } :=
      ⟨id, Nat.le_refl _, fun _ => ⟨rfl, fun h => (tag_entryDel h).1, .inl⟩, fun h => absurd h (Nat.lt_irrefl _)⟩
    have h1 := h0.trans (ss_refill x C d { s with entries := entryDel s.entries tag } t)
    split
    · exact h1
    · split
      · exact h1
      · rename_i bs _
        have h2 := h1.trans (ss_handleKeys x C v d bs 0 _ _)
        split <;> (rename_i h3; rw [h3] at h2; exact h2)

/-- A message with the tag `x`: the tag is not waited for any more, unless it was generated again. -/
theorem ss_used (x : Nat) (C : Cfg) (v : Draw) (d : Bytes) (msg : Bytes) (s : Sess) (t : TagMap) (hx : Live x s → ¬ Rep x s) :
    (s.decrypt C v d x msg t).2.2.log.count x = t.log.count x →
      ¬ Live x (s.decrypt C v d x msg t).2.1 ∧ ¬ Rep x (s.decrypt C v d x msg t).2.1 := by
  have hrep := (ss_decrypt x C v d x msg s t).rep
  cases he : entryGet s.entries x with
  | none =>
    intro _
    simp only [Sess.decrypt, he]
    obtain ⟨e1, e2, e3⟩ := ss_nsr C x msg s
    exact ⟨by rw [Live, e1]; exact entryGet_none he, fun h => (e3 x h).2 rfl⟩
  | some e =>
    have hl : Live x s := by
      have h1 := List.mem_of_find?_eq_some he
      have h2 := List.find?_some he
      exact List.mem_map.2 ⟨e, h1, by simpa using h2⟩
    suffices h : (s.decrypt C v d x msg t).2.2.log.count x = t.log.count x → ¬ Live x (s.decrypt C v d x msg t).2.1 from
      fun hc => ⟨h hc, fun h => hx hl (hrep h)⟩
    have n0 : ¬ Live x { s with entries := entryDel s.entries x } := fun h => (tag_entryDel h).2 rfl
    have h1 := ss_refill x C d { s with entries := entryDel s.entries x } t
    simp only [Sess.decrypt, he]
    split
    · exact fun hc h => n0 ((h1.same hc).2.1 h)
    · split
      · exact fun hc h => n0 ((h1.same hc).2.1 h)
      · rename_i bs _
        have h2 := h1.trans (ss_handleKeys x C v d bs 0 _ _)
        split <;> (rename_i h3; rw [h3] at h2; exact fun hc h => n0 ((h2.same hc).2.1 h))

/-! ## All sessions -/

/-- Who waits for a tag, of three kinds (a tag of a tag set, of a replaced tag set, for a reply). -/
structure Own (x : Nat) (t : TagMap) (L O N : Bytes → Prop) : Prop where
  known : t.map x ≠ none → 1 ≤ t.log.count x
  own : t.log.count x ≤ 1 → ∃ o : Option (Bytes × Bool), (o ≠ none → t.log.count x = 1) ∧
    ∀ d, (L d ∨ O d → o = some (d, true)) ∧ (N d → o = some (d, false)) ∧ (L d ∨ N d → t.map x = some d)

/-- A call for one destination. -/
theorem Own.step {x : Nat} {t t' : TagMap} {L O N L' O' N' : Bytes → Prop} (h : Own x t L O N) (d : Bytes)
    (mono : t.log.count x ≤ t'.log.count x)
    (same : t'.log.count x = t.log.count x → t'.map x = t.map x ∧ (L' d → L d) ∧ (O' d → O d ∨ L d) ∧ (N' d → N d))
    (more : t.log.count x < t'.log.count x → t'.map x = some d ∧ ((N' d → N d) ∨ (L' d ∨ O' d → L d ∨ O d)))
    (other : ∀ e, e ≠ d → (L' e → L e) ∧ (O' e → O e) ∧ (N' e → N e)) : Own x t' L' O' N' := by
  by_cases hc : t.log.count x < t'.log.count x
  · obtain ⟨m1, m2⟩ := more hc
    refine ⟨fun _ => by omega, fun h1 => ?_⟩
    obtain ⟨o, ho, hd⟩ := h.own (by omega)
    have hn : o = none := by
      cases o with
      | none => rfl
      | some y => have := ho (by simp); omega
    subst hn
    have hL : ∀ e, ¬ L e := fun e hl => by cases (hd e).1 (.inl hl)
    have hO : ∀ e, ¬ O e := fun e hl => by cases (hd e).1 (.inr hl)
    have hN : ∀ e, ¬ N e := fun e hl => by cases (hd e).2.1 hl
    have k1 : ∀ e, e ≠ d → ¬ L' e ∧ ¬ O' e ∧ ¬ N' e := fun e he =>
      ⟨fun h => hL e ((other e he).1 h), fun h => hO e ((other e he).2.1 h), fun h => hN e ((other e he).2.2 h)⟩
    rcases m2 with m2 | m2
    · refine ⟨some (d, true), fun _ => by omega, fun e => ?_⟩
      by_cases he : e = d
      · subst he; exact ⟨fun _ => rfl, fun h => absurd (m2 h) (hN _), fun _ => m1⟩
      · exact ⟨fun h => absurd h (by simp [k1 e he]), fun h => absurd h (k1 e he).2.2, fun h => absurd h (by simp [k1 e he])⟩
    · have k2 : ¬ (L' d ∨ O' d) := fun h => (m2 h).elim (hL d) (hO d)
      refine ⟨some (d, false), fun _ => by omega, fun e => ?_⟩
      by_cases he : e = d
      · subst he; exact ⟨fun h => absurd h k2, fun _ => rfl, fun _ => m1⟩
      · exact ⟨fun h => absurd h (by simp [k1 e he]), fun h => absurd h (k1 e he).2.2, fun h => absurd h (by simp [k1 e he])⟩
  · obtain ⟨s1, s2, s3, s4⟩ := same (by omega)
    refine ⟨fun h0 => by rw [s1] at h0; have := h.known h0; omega, fun h1 => ?_⟩
    obtain ⟨o, ho, hd⟩ := h.own (by omega)
    refine ⟨o, fun h0 => by have := ho h0; omega, fun e => ?_⟩
    obtain ⟨a1, a2, a3⟩ := hd e
    have key : (L' e → L e) ∧ (O' e → O e ∨ L e) ∧ (N' e → N e) := by
      by_cases he : e = d
      · subst he; exact ⟨s2, s3, s4⟩
      · exact ⟨(other e he).1, fun h => .inl ((other e he).2.1 h), (other e he).2.2⟩
    obtain ⟨k1, k2, k3⟩ := key
    rw [s1]
    exact ⟨fun h => a1 (h.elim (fun h => .inl (k1 h)) fun h => (k2 h).symm), fun h => a2 (k3 h), fun h => a3 (h.imp k1 k3)⟩

/-- A message with the tag. -/
theorem Own.use {x : Nat} {t t0 t' : TagMap} {L O N L' O' N' : Bytes → Prop} (h : Own x t L O N) (d : Bytes) (hd : t.map x = some d)
    (e0 : t0 = t.remove x) (mono : t0.log.count x ≤ t'.log.count x)
    (same : t.log.count x ≤ 1 → t'.log.count x = t0.log.count x → t'.map x = t0.map x ∧ ¬ L' d ∧ (O' d → O d ∨ L d) ∧ ¬ N' d)
    (other : ∀ e, e ≠ d → (L' e → L e) ∧ (O' e → O e) ∧ (N' e → N e)) : Own x t' L' O' N' := by
  have hl : t0.log = t.log := by rw [e0]; rfl
  have hm : t0.map x = none := by rw [e0]; simp [TagMap.remove]
  have h1 := h.known (by rw [hd]; simp)
  rw [hl] at mono same
  by_cases hc : t'.log.count x = t.log.count x
  · refine ⟨fun h0 => by omega, fun h2 => ?_⟩
    obtain ⟨s1, s2, s3, s4⟩ := same (by omega) hc
    obtain ⟨o, ho, ha⟩ := h.own (by omega)
    refine ⟨o, fun h0 => by have := ho h0; omega, fun e => ?_⟩
    obtain ⟨a1, a2, a3⟩ := ha e
    by_cases he : e = d
    · subst he
      exact ⟨fun h => a1 (h.elim (fun h => absurd h s2) fun h => (s3 h).symm), fun h => absurd h s4, fun h => absurd h (by simp [s2, s4])⟩
    · obtain ⟨k1, k2, k3⟩ := other e he
      refine ⟨fun h => a1 (h.imp k1 k2), fun h => a2 (k3 h), fun h => ?_⟩
      have := a3 (h.imp k1 k3)
      rw [hd] at this
      exact absurd (Option.some.inj this).symm he
  · exact ⟨fun _ => by omega, fun h2 => by omega⟩

/-- Tags are removed. -/
theorem Own.less {x : Nat} {t t' : TagMap} {L O N L' O' N' : Bytes → Prop} (h : Own x t L O N) (hl : t'.log = t.log)
    (hm : t'.map x = t.map x ∨ (t'.map x = none ∧ (t.log.count x ≤ 1 → ∀ d, ¬ L' d ∧ ¬ N' d))) (hd : ∀ d, (L' d → L d) ∧ (O' d → O d) ∧ (N' d → N d)) :
    Own x t' L' O' N' := by
  refine ⟨fun h0 => ?_, fun h1 => ?_⟩
  · rw [hl]
    rcases hm with hm | hm
    · rw [hm] at h0; exact h.known h0
    · exact absurd hm.1 h0
  · rw [hl] at h1 ⊢
    obtain ⟨o, ho, ha⟩ := h.own h1
    refine ⟨o, ho, fun d => ?_⟩
    obtain ⟨a1, a2, a3⟩ := ha d
    obtain ⟨k1, k2, k3⟩ := hd d
    refine ⟨fun h => a1 (h.imp k1 k2), fun h => a2 (k3 h), fun h => ?_⟩
    rcases hm with hm | hm
    · rw [hm]; exact a3 (h.imp k1 k3)
    · exact absurd h (by simp [hm.2 h1 d])

/-! ## Sessions that are being opened -/

def PLive (x : Nat) : PState → Prop
  | .inbound _ entries => x ∈ entries.map (·.tag)
  | .awaitNsr _ _ _ entries => x ∈ entries.map (·.tag)
  | .awaitEs _ _ _ _ _ entries => x ∈ entries.map (·.tag)
  | .poisoned => False

def PRep (x : Nat) : PState → Prop
  | .awaitNsr _ _ nsr _ => x ∈ nsr.map (·.2.tag)
  | .awaitEs _ _ _ _ nsr _ => x ∈ nsr.map (·.2.tag)
  | _ => False

/-- What a call to a session that is being opened may do with the tag. -/
structure PP (x : Nat) (d : Bytes) (t : TagMap) (l r : Prop) (t' : TagMap) (l' r' : Prop) : Prop where
  mono : t.log.count x ≤ t'.log.count x
  same : t'.log.count x = t.log.count x → t'.map x = t.map x ∧ (l' → l) ∧ (r' → r)
  more : t.log.count x < t'.log.count x → t'.map x = some d ∧ ((r' → r) ∨ (l' → l))

theorem PP.keep {x : Nat} {d : Bytes} {t : TagMap} {l r l' r' : Prop} (h1 : l' → l) (h2 : r' → r) : PP x d t l r t l' r' :=
  ⟨Nat.le_refl _, fun _ => ⟨rfl, h1, h2⟩, fun h => absurd h (Nat.lt_irrefl _)⟩

theorem PP.add {x : Nat} {d : Bytes} {t : TagMap} {l r l' r' : Prop} (new : List Nat) (h1 : l' → l ∨ x ∈ new) (h2 : r' → r ∨ x ∈ new)
    (h3 : (r' → r) ∨ (l' → l)) : PP x d t l r (t.inserts d new) l' r' := by
  have hc : (t.inserts d new).log.count x = t.log.count x + new.count x := by rw [inserts_log, List.count_append]
  refine ⟨by omega, fun e => ?_, fun e => ?_⟩
  · have hn : x ∉ new := by rw [← List.count_eq_zero]; omega
    exact ⟨by rw [inserts_at, if_neg hn], fun h => (h1 h).resolve_right hn, fun h => (h2 h).resolve_right hn⟩
  · have hn : x ∈ new := by rw [← List.count_pos_iff]; omega
    exact ⟨by rw [inserts_at, if_pos hn], h3⟩

theorem pp_out (x : Nat) (C : Cfg) (v : Draw) (c : KeyCtx) (own d ls msg : Bytes) (t : TagMap) (p : PState) :
    PP x d t (PLive x p) (PRep x p) (p.advanceOut C v c own d ls msg t).2.2 (PLive x (p.advanceOut C v c own d ls msg t).2.1)
      (PRep x (p.advanceOut C v c own d ls msg t).2.1) ∧
    ∀ out s i j, (p.advanceOut C v c own d ls msg t).1 = .ok (.create out s i j) →
      (p.advanceOut C v c own d ls msg t).2.2 = t ∧ s.expiring = [] ∧ (Live x s → PLive x p) ∧ (Rep x s → PRep x p) := by
  have pois : ∀ l r : Prop, PP x d t l r t (PLive x .poisoned) (PRep x .poisoned) := fun l r => .keep False.elim False.elim
  cases p with
  | inbound i entries =>
    simp only [PState.advanceOut]
    split
    · exact ⟨pois _ _, by simp⟩
    · split
      · exact ⟨.add _ (fun h => tag_entryPuts _ _ h) False.elim (.inl False.elim), by simp⟩
      · exact ⟨pois _ _, by simp⟩
      · exact ⟨pois _ _, by simp⟩
  | awaitNsr outs pk nsr entries =>
    simp only [PState.advanceOut]
    split
    · exact ⟨pois _ _, by simp⟩
    · split
      · exact ⟨pois _ _, by simp⟩
      · exact ⟨.add _ (fun h => .inl h) (fun h => tag_nsrPuts _ _ _ h) (.inr id), by simp⟩
  | awaitEs outs send recv pk nsr entries =>
    simp only [PState.advanceOut]
    split
    · exact ⟨pois _ _, by simp [invalid]; split <;> simp⟩
    · split
      · exact ⟨pois _ _, by simp⟩
      · refine ⟨pois _ _, fun out s i j h => ?_⟩
        injection h with h
        injection h with _ h _ _
        subst h
        exact ⟨rfl, rfl, id, fun ⟨_, _, _, e, hm⟩ => by cases e; exact hm⟩
  | poisoned => exact ⟨pois _ _, by simp [PState.advanceOut, invalid]; split <;> simp⟩

theorem pp_in (x : Nat) (C : Cfg) (d : Bytes) (tag : Nat) (msg : Bytes) (t : TagMap) (p : PState) :
    PP x d t (PLive x p) (PRep x p) (p.advanceIn C d tag msg t).2.2 (PLive x (p.advanceIn C d tag msg t).2.1)
      (PRep x (p.advanceIn C d tag msg t).2.1) ∧
    (∀ out s i j, (p.advanceIn C d tag msg t).1 = .ok (.create out s i j) →
      (p.advanceIn C d tag msg t).2.2 = t ∧ s.expiring = [] ∧ (Live x s → PLive x p ∧ x ≠ tag) ∧ ¬ Rep x s) ∧
    (x = tag → (PLive x p → ¬ PRep x p) → (p.advanceIn C d tag msg t).2.2.log.count x = t.log.count x →
      ¬ PLive x (p.advanceIn C d tag msg t).2.1 ∧ ¬ PRep x (p.advanceIn C d tag msg t).2.1) := by
  have pois : ∀ l r : Prop, PP x d t l r t (PLive x .poisoned) (PRep x .poisoned) := fun l r => .keep False.elim False.elim
  have inv : ∀ out s i j, (invalid C.chk : Out PEvent) ≠ .ok (.create out s i j) := by intro out s i j; unfold invalid; split <;> simp
  cases p with
  | inbound i entries =>
    simp only [PState.advanceIn]
    split
    · exact ⟨pois _ _, fun out s i j h => absurd h (inv _ _ _ _), fun _ _ _ => ⟨id, id⟩⟩
    · split
      · refine ⟨pois _ _, fun out s i j h => ?_, fun _ _ _ => ⟨id, id⟩⟩
        injection h with h
        injection h with _ h _ _
        subst h
        exact ⟨rfl, rfl, fun h => tag_entryDel h, fun ⟨_, _, _, e, hm⟩ => by cases e⟩
      · exact ⟨pois _ _, by simp, fun _ _ _ => ⟨id, id⟩⟩
      · exact ⟨pois _ _, by simp, fun _ _ _ => ⟨id, id⟩⟩
  | awaitNsr outs pk nsr entries =>
    simp only [PState.advanceIn]
    split
    · exact ⟨pois _ _, fun out s i j h => absurd h (inv _ _ _ _), fun _ _ _ => ⟨id, id⟩⟩
    · next i e he =>
      split
      · exact ⟨pois _ _, by simp, fun _ _ _ => ⟨id, id⟩⟩
      · split
        · split
          · exact ⟨pois _ _, by simp, fun _ _ _ => ⟨id, id⟩⟩
          · next new _ _ =>
            refine ⟨.add _ (fun h => tag_entryPuts _ _ h) (fun h => .inl (tag_nsrDel h).1) (.inl fun h => (tag_nsrDel h).1), by simp, ?_⟩
            rintro rfl hex hc
            rw [inserts_log, List.count_append] at hc
            have hn : x ∉ new.map (·.tag) := by rw [← List.count_eq_zero]; omega
            have hr : x ∈ nsr.map (·.2.tag) := by
              have h1 := List.mem_of_find?_eq_some he
              have h2 := List.find?_some he
              exact List.mem_map.2 ⟨_, h1, by simpa using h2⟩
            exact ⟨fun h => hex ((tag_entryPuts _ _ h).resolve_right hn) hr, fun h => (tag_nsrDel h).2 rfl⟩
        · exact ⟨pois _ _, by simp, fun _ _ _ => ⟨id, id⟩⟩
        · exact ⟨pois _ _, by simp, fun _ _ _ => ⟨id, id⟩⟩
  | awaitEs outs send recv pk nsr entries =>
    simp only [PState.advanceIn]
    split
    · exact ⟨pois _ _, fun out s i j h => absurd h (inv _ _ _ _), fun _ _ _ => ⟨id, id⟩⟩
    · next i e he =>
      split
      · exact ⟨pois _ _, by simp, fun _ _ _ => ⟨id, id⟩⟩
      · split
        · refine ⟨.keep id (fun h => (tag_nsrDel h).1), by simp, ?_⟩
          rintro rfl hex hc
          have hr : x ∈ nsr.map (·.2.tag) := by
            have h1 := List.mem_of_find?_eq_some he
            have h2 := List.find?_some he
            exact List.mem_map.2 ⟨_, h1, by simpa using h2⟩
          exact ⟨fun h => hex h hr, fun h => (tag_nsrDel h).2 rfl⟩
        · exact ⟨pois _ _, by simp, fun _ _ _ => ⟨id, id⟩⟩
        · exact ⟨pois _ _, by simp, fun _ _ _ => ⟨id, id⟩⟩
  | poisoned => exact ⟨pois _ _, fun out s i j h => absurd h (inv _ _ _ _), fun _ _ _ => ⟨id, id⟩⟩

/-! ## The manager -/

def WL (x : Nat) (act : Assoc Active) (pend : Assoc Pending) (d : Bytes) : Prop := (∃ a, (d, a) ∈ act ∧ Live x a.s) ∨ ∃ p, (d, p) ∈ pend ∧ PLive x p.state
def WO (x : Nat) (act : Assoc Active) (d : Bytes) : Prop := ∃ a, (d, a) ∈ act ∧ Old x a.s
def WN (x : Nat) (act : Assoc Active) (pend : Assoc Pending) (d : Bytes) : Prop := (∃ a, (d, a) ∈ act ∧ Rep x a.s) ∨ ∃ p, (d, p) ∈ pend ∧ PRep x p.state

structure Kept (x : Nat) (t : TagMap) (act : Assoc Active) (pend : Assoc Pending) : Prop where
  keys : (act.map (·.1)).Nodup
  apart : ∀ d a p, (d, a) ∈ act → (d, p) ∈ pend → ∃ i, p.state = .inbound i []
  own : Own x t (WL x act pend) (WO x act) (WN x act pend)

theorem mem_del {β : Type} {m : Assoc β} {d e : Bytes} {b : β} : (e, b) ∈ m.del d ↔ (e, b) ∈ m ∧ e ≠ d := by simp [Assoc.del]

theorem mem_put {β : Type} {m : Assoc β} {d e : Bytes} {v b : β} : (e, b) ∈ m.put d v ↔ ((e, b) ∈ m ∧ e ≠ d) ∨ (e = d ∧ b = v) := by
  simp [Assoc.put, Assoc.del]

theorem get_none {β : Type} {m : Assoc β} {d : Bytes} (h : m.get d = none) (b : β) : (d, b) ∉ m := by
  intro hm
  simp only [Assoc.get, Option.map_eq_none_iff, List.find?_eq_none] at h
  simpa using h _ hm

theorem get_mem {β : Type} {m : Assoc β} {d : Bytes} {b : β} (h : m.get d = some b) : (d, b) ∈ m := by
  simp only [Assoc.get, Option.map_eq_some_iff] at h
  obtain ⟨y, hy, rfl⟩ := h
  have h1 := List.mem_of_find?_eq_some hy
  have h2 := List.find?_some hy
  obtain rfl : y.1 = d := by simpa using h2
  exact h1

theorem nodup_put {β : Type} {m : Assoc β} (h : (m.map (·.1)).Nodup) (d : Bytes) (v : β) : ((m.put d v).map (·.1)).Nodup := by
  rw [Assoc.put, List.map_append]
  refine List.nodup_append.2 ⟨h.sublist (List.filter_sublist.map _), by simp, ?_⟩
  intro a ha b hb
  simp only [List.map_cons, List.map_nil, List.mem_singleton] at hb
  obtain ⟨y, hy, rfl⟩ := List.mem_map.1 ha
  subst hb
  have := (List.mem_filter.1 hy).2
  simpa using this

theorem nodup_del {β : Type} {m : Assoc β} (h : (m.map (·.1)).Nodup) (d : Bytes) : ((m.del d).map (·.1)).Nodup :=
  h.sublist (List.filter_sublist.map _)

section
variable {x : Nat} {t t' : TagMap} {act : Assoc Active} {pend : Assoc Pending} {d : Bytes}

theorem Kept.empty (h : Kept x t act pend) {a : Active} {p : Pending} (ha : (d, a) ∈ act) (hp : (d, p) ∈ pend) : ¬ PLive x p.state ∧ ¬ PRep x p.state := by
  obtain ⟨i, e⟩ := h.apart d a p ha hp
  rw [e]; simp [PLive, PRep]

theorem Kept.actPut (h : Kept x t act pend) {a a' : Active} (ha : (d, a) ∈ act) (hs : SS x d t a.s t' a'.s) : Kept x t' (act.put d a') pend where
  keys := nodup_put h.keys d a'
  apart e b p hb hp := by
    rcases mem_put.1 hb with hb | hb
    · exact h.apart e b p hb.1 hp
    · rw [hb.1] at hp; exact h.apart d a p ha hp
  own := by
    have k1 : WL x (act.put d a') pend d → Live x a'.s ∨ WL x act pend d := by
      rintro (⟨b, hb, hl⟩ | hp)
      · rcases mem_put.1 hb with hb | hb
        · exact absurd rfl hb.2
        · rw [hb.2] at hl; exact .inl hl
      · exact .inr (.inr hp)
    have k2 : WO x (act.put d a') d → Old x a'.s := by
      rintro ⟨b, hb, hl⟩
      rcases mem_put.1 hb with hb | hb
      · exact absurd rfl hb.2
      · rw [hb.2] at hl; exact hl
    have k3 : WN x (act.put d a') pend d → WN x act pend d := by
      rintro (⟨b, hb, hl⟩ | hp)
      · rcases mem_put.1 hb with hb | hb
        · exact absurd rfl hb.2
        · rw [hb.2] at hl; exact .inl ⟨a, ha, hs.rep hl⟩
      · exact .inr hp
    refine h.own.step d hs.mono (fun e => ?_) (fun e => ⟨hs.more e, .inl k3⟩) (fun e he => ⟨?_, ?_, ?_⟩)
    · obtain ⟨s1, s2, s3⟩ := hs.same e
      refine ⟨s1, fun hl => (k1 hl).elim (fun hl => .inl ⟨a, ha, s2 hl⟩) id, fun ho => ?_, k3⟩
      exact (s3 (k2 ho)).imp (fun h => ⟨a, ha, h⟩) fun h => .inl ⟨a, ha, h⟩
    · rintro (⟨b, hb, hl⟩ | hp)
      · exact .inl ⟨b, ((mem_put.1 hb).resolve_right (fun h => he h.1)).1, hl⟩
      · exact .inr hp
    · rintro ⟨b, hb, hl⟩
      exact ⟨b, ((mem_put.1 hb).resolve_right (fun h => he h.1)).1, hl⟩
    · rintro (⟨b, hb, hl⟩ | hp)
      · exact .inl ⟨b, ((mem_put.1 hb).resolve_right (fun h => he h.1)).1, hl⟩
      · exact .inr hp

theorem Kept.actUse (h : Kept x t act pend) {a a' : Active} (ha : (d, a) ∈ act) (hd : t.map x = some d) (hs : SS x d (t.remove x) a.s t' a'.s)
    (hu : t.log.count x ≤ 1 → t'.log.count x = t.log.count x → ¬ Live x a'.s ∧ ¬ Rep x a'.s) : Kept x t' (act.put d a') pend where
  keys := nodup_put h.keys d a'
  apart e b p hb hp := by
    rcases mem_put.1 hb with hb | hb
    · exact h.apart e b p hb.1 hp
    · rw [hb.1] at hp; exact h.apart d a p ha hp
  own := by
    refine h.own.use d hd rfl hs.mono (fun e0 e => ?_) (fun e he => ⟨?_, ?_, ?_⟩)
    · obtain ⟨s1, s2, s3⟩ := hs.same e
      obtain ⟨u1, u2⟩ := hu e0 e
      refine ⟨s1, ?_, ?_, ?_⟩
      · rintro (⟨b, hb, hl⟩ | ⟨p, hp, hl⟩)
        · rcases mem_put.1 hb with hb | hb
          · exact hb.2 rfl
          · rw [hb.2] at hl; exact u1 hl
        · exact (h.empty ha hp).1 hl
      · rintro ⟨b, hb, hl⟩
        rcases mem_put.1 hb with hb | hb
        · exact absurd rfl hb.2
        · rw [hb.2] at hl; exact (s3 hl).imp (fun h => ⟨a, ha, h⟩) fun h => .inl ⟨a, ha, h⟩
      · rintro (⟨b, hb, hl⟩ | ⟨p, hp, hl⟩)
        · rcases mem_put.1 hb with hb | hb
          · exact hb.2 rfl
          · rw [hb.2] at hl; exact u2 hl
        · exact (h.empty ha hp).2 hl
    · rintro (⟨b, hb, hl⟩ | hp)
      · exact .inl ⟨b, ((mem_put.1 hb).resolve_right (fun h => he h.1)).1, hl⟩
      · exact .inr hp
    · rintro ⟨b, hb, hl⟩
      exact ⟨b, ((mem_put.1 hb).resolve_right (fun h => he h.1)).1, hl⟩
    · rintro (⟨b, hb, hl⟩ | hp)
      · exact .inl ⟨b, ((mem_put.1 hb).resolve_right (fun h => he h.1)).1, hl⟩
      · exact .inr hp

/-- The tags of one session are removed, and the session with it. -/
theorem Kept.actDel (h : Kept x t act pend) {a : Active} (ha : (d, a) ∈ act) : Kept x (a.s.destroy t) (act.del d) pend where
  keys := nodup_del h.keys d
  apart e b p hb hp := h.apart e b p (mem_del.1 hb).1 hp
  own := by
    have hlog : (a.s.destroy t).log = t.log := (shrinks_removes _ t).1
    have hm : (a.s.destroy t).map x = if x ∈ a.s.entries.map (·.tag) then none else t.map x := removes_map ..
    have hsub : ∀ e, (WL x (act.del d) pend e → WL x act pend e) ∧ (WO x (act.del d) e → WO x act e) ∧ (WN x (act.del d) pend e → WN x act pend e) := by
      intro e
      refine ⟨?_, ?_, ?_⟩
      · rintro (⟨b, hb, hl⟩ | hp)
        · exact .inl ⟨b, (mem_del.1 hb).1, hl⟩
        · exact .inr hp
      · rintro ⟨b, hb, hl⟩; exact ⟨b, (mem_del.1 hb).1, hl⟩
      · rintro (⟨b, hb, hl⟩ | hp)
        · exact .inl ⟨b, (mem_del.1 hb).1, hl⟩
        · exact .inr hp
    refine h.own.less hlog ?_ hsub
    by_cases hx : x ∈ a.s.entries.map (·.tag)
    · rw [if_pos hx] at hm
      refine .inr ⟨hm, fun h1 e => ?_⟩
      obtain ⟨o, ho, hall⟩ := h.own.own h1
      have od := (hall d).1 (.inl (.inl ⟨a, ha, hx⟩))
      refine ⟨fun hl => ?_, fun hn => ?_⟩
      · have := (hall e).1 (.inl ((hsub e).1 hl))
        rw [od] at this
        obtain rfl : d = e := by simpa using this
        rcases hl with ⟨b, hb, _⟩ | ⟨p, hp, hl⟩
        · exact (mem_del.1 hb).2 rfl
        · exact (h.empty ha hp).1 hl
      · have := (hall e).2.1 ((hsub e).2.2 hn)
        rw [od] at this
        simp at this
    · rw [if_neg hx] at hm
      exact .inl hm

theorem Kept.pendPut (h : Kept x t act pend) {p' : Pending} (hn : act.get d = none) {l r : Prop} (hl : l → WL x act pend d) (hr : r → WN x act pend d)
    (hs : PP x d t l r t' (PLive x p'.state) (PRep x p'.state)) : Kept x t' act (pend.put d p') where
  keys := h.keys
  apart e b p hb hp := by
    rcases mem_put.1 hp with hp | hp
    · exact h.apart e b p hb hp.1
    · rw [hp.1] at hb; exact absurd hb (get_none hn b)
  own := by
    have k1 : WL x act (pend.put d p') d → PLive x p'.state := by
      rintro (⟨b, hb, _⟩ | ⟨p, hp, hl⟩)
      · exact absurd hb (get_none hn b)
      · rcases mem_put.1 hp with hp | hp
        · exact absurd rfl hp.2
        · rw [hp.2] at hl; exact hl
    have k2 : ¬ WO x act d := by rintro ⟨b, hb, _⟩; exact get_none hn b hb
    have k3 : WN x act (pend.put d p') d → PRep x p'.state := by
      rintro (⟨b, hb, _⟩ | ⟨p, hp, hl⟩)
      · exact absurd hb (get_none hn b)
      · rcases mem_put.1 hp with hp | hp
        · exact absurd rfl hp.2
        · rw [hp.2] at hl; exact hl
    refine h.own.step d hs.mono (fun e => ?_) (fun e => ?_) (fun e he => ⟨?_, id, ?_⟩)
    · obtain ⟨s1, s2, s3⟩ := hs.same e
      exact ⟨s1, fun h => hl (s2 (k1 h)), fun h => absurd h k2, fun h => hr (s3 (k3 h))⟩
    · obtain ⟨m1, m2⟩ := hs.more e
      refine ⟨m1, m2.imp (fun m h => hr (m (k3 h))) fun m h => .inl (hl (m (k1 (h.resolve_right k2))))⟩
    · rintro (hb | ⟨p, hp, hl⟩)
      · exact .inl hb
      · exact .inr ⟨p, ((mem_put.1 hp).resolve_right (fun h => he h.1)).1, hl⟩
    · rintro (hb | ⟨p, hp, hl⟩)
      · exact .inl hb
      · exact .inr ⟨p, ((mem_put.1 hp).resolve_right (fun h => he h.1)).1, hl⟩

theorem Kept.pendUse (h : Kept x t act pend) {p p' : Pending} (hn : act.get d = none) (hp : (d, p) ∈ pend) (hd : t.map x = some d)
    (hs : PP x d (t.remove x) (PLive x p.state) (PRep x p.state) t' (PLive x p'.state) (PRep x p'.state))
    (hu : t.log.count x ≤ 1 → t'.log.count x = t.log.count x → ¬ PLive x p'.state ∧ ¬ PRep x p'.state) : Kept x t' act (pend.put d p') where
  keys := h.keys
  apart e b p hb hp := by
    rcases mem_put.1 hp with hp | hp
    · exact h.apart e b p hb hp.1
    · rw [hp.1] at hb; exact absurd hb (get_none hn b)
  own := by
    refine h.own.use d hd rfl hs.mono (fun e0 e => ?_) (fun e he => ⟨?_, id, ?_⟩)
    · obtain ⟨s1, s2, s3⟩ := hs.same e
      obtain ⟨u1, u2⟩ := hu e0 e
      refine ⟨s1, ?_, fun ⟨b, hb, _⟩ => absurd hb (get_none hn b), ?_⟩
      · rintro (⟨b, hb, _⟩ | ⟨q, hq, hl⟩)
        · exact get_none hn b hb
        · rcases mem_put.1 hq with hq | hq
          · exact hq.2 rfl
          · rw [hq.2] at hl; exact u1 hl
      · rintro (⟨b, hb, _⟩ | ⟨q, hq, hl⟩)
        · exact get_none hn b hb
        · rcases mem_put.1 hq with hq | hq
          · exact hq.2 rfl
          · rw [hq.2] at hl; exact u2 hl
    · rintro (hb | ⟨p, hp, hl⟩)
      · exact .inl hb
      · exact .inr ⟨p, ((mem_put.1 hp).resolve_right (fun h => he h.1)).1, hl⟩
    · rintro (hb | ⟨p, hp, hl⟩)
      · exact .inl hb
      · exact .inr ⟨p, ((mem_put.1 hp).resolve_right (fun h => he h.1)).1, hl⟩

theorem create_apart (h : Kept x t act pend) (a' : Active) : ∀ e a q, (e, a) ∈ act.put d a' → (e, q) ∈ pend.del d → ∃ i, q.state = .inbound i [] := by
  intro e b q hb hq
  rcases mem_put.1 hb with hb | hb
  · exact h.apart e b q hb.1 (mem_del.1 hq).1
  · exact absurd hb.1 (mem_del.1 hq).2

theorem create_other (a' : Active) {e : Bytes} (he : e ≠ d) : (WL x (act.put d a') (pend.del d) e → WL x act pend e) ∧ (WO x (act.put d a') e → WO x act e) ∧
    (WN x (act.put d a') (pend.del d) e → WN x act pend e) := by
  refine ⟨?_, ?_, ?_⟩
  · rintro (⟨b, hb, hl⟩ | ⟨q, hq, hl⟩)
    · exact .inl ⟨b, ((mem_put.1 hb).resolve_right (fun h => he h.1)).1, hl⟩
    · exact .inr ⟨q, (mem_del.1 hq).1, hl⟩
  · rintro ⟨b, hb, hl⟩
    exact ⟨b, ((mem_put.1 hb).resolve_right (fun h => he h.1)).1, hl⟩
  · rintro (⟨b, hb, hl⟩ | ⟨q, hq, hl⟩)
    · exact .inl ⟨b, ((mem_put.1 hb).resolve_right (fun h => he h.1)).1, hl⟩
    · exact .inr ⟨q, (mem_del.1 hq).1, hl⟩

theorem create_at (a' : Active) (ho : a'.s.expiring = []) : (WL x (act.put d a') (pend.del d) d → Live x a'.s) ∧ ¬ WO x (act.put d a') d ∧
    (WN x (act.put d a') (pend.del d) d → Rep x a'.s) := by
  refine ⟨?_, ?_, ?_⟩
  · rintro (⟨b, hb, hl⟩ | ⟨q, hq, hl⟩)
    · rcases mem_put.1 hb with hb | hb
      · exact absurd rfl hb.2
      · rw [hb.2] at hl; exact hl
    · exact absurd rfl (mem_del.1 hq).2
  · rintro ⟨b, hb, g, hg, _⟩
    rcases mem_put.1 hb with hb | hb
    · exact absurd rfl hb.2
    · rw [hb.2, ho] at hg; cases hg
  · rintro (⟨b, hb, hl⟩ | ⟨q, hq, hl⟩)
    · rcases mem_put.1 hb with hb | hb
      · exact absurd rfl hb.2
      · rw [hb.2] at hl; exact hl
    · exact absurd rfl (mem_del.1 hq).2

theorem Kept.create (h : Kept x t act pend) {p : Pending} {a' : Active} (hp : (d, p) ∈ pend) (ho : a'.s.expiring = [])
    (hl : Live x a'.s → PLive x p.state) (hr : Rep x a'.s → PRep x p.state) : Kept x t (act.put d a') (pend.del d) where
  keys := nodup_put h.keys d a'
  apart := create_apart h a'
  own := by
    obtain ⟨k1, k2, k3⟩ := create_at (x := x) (act := act) (pend := pend) (d := d) a' ho
    refine h.own.step d (Nat.le_refl _) (fun _ => ⟨rfl, fun h => .inr ⟨p, hp, hl (k1 h)⟩, fun h => absurd h k2, fun h => .inr ⟨p, hp, hr (k3 h)⟩⟩)
      (fun h => absurd h (Nat.lt_irrefl _)) (fun e he => create_other a' he)

theorem Kept.createUse (h : Kept x t act pend) {a' : Active} (hd : t.map x = some d) (ho : a'.s.expiring = [])
    (hl : ¬ Live x a'.s) (hr : ¬ Rep x a'.s) : Kept x (t.remove x) (act.put d a') (pend.del d) where
  keys := nodup_put h.keys d a'
  apart := create_apart h a'
  own := by
    obtain ⟨k1, k2, k3⟩ := create_at (x := x) (act := act) (pend := pend) (d := d) a' ho
    exact h.own.use d hd rfl (Nat.le_refl _) (fun _ _ => ⟨rfl, fun h => hl (k1 h), fun h => absurd h k2, fun h => hr (k3 h)⟩)
      (fun e he => create_other a' he)

end

/-! ## Maintenance -/

theorem ex_expire (x : Nat) (now : Duration) (l : List (Duration × List Nat)) : ∀ (es : List Entry) (t : TagMap),
    (∀ g ∈ (Sess.expire now l es t).1, g ∈ l) ∧
    (x ∈ (Sess.expire now l es t).2.1.map (·.tag) → x ∈ es.map (·.tag)) ∧
    ((Sess.expire now l es t).2.2.map x = t.map x ∨
      ((Sess.expire now l es t).2.2.map x = none ∧ (∃ g ∈ l, x ∈ g.2) ∧ x ∉ (Sess.expire now l es t).2.1.map (·.tag))) := by
  induction l with
  | nil => intro es t; exact ⟨fun _ h => h, id, .inl rfl⟩
  | cons g l ih =>
    obtain ⟨c, ts⟩ := g
    intro es t
    by_cases hlt : now < c + prevTagMaxAge
    · have e : Sess.expire now ((c, ts) :: l) es t = ((c, ts) :: l, es, t) := by rw [Sess.expire, if_pos hlt]
      rw [e]
      exact ⟨fun _ h => h, id, .inl rfl⟩
    · have e : Sess.expire now ((c, ts) :: l) es t = Sess.expire now l (ts.foldl entryDel es) (t.removes ts) := by rw [Sess.expire, if_neg hlt]
      rw [e]
      obtain ⟨i1, i2, i3⟩ := ih (ts.foldl entryDel es) (t.removes ts)
      refine ⟨fun g hg => List.mem_cons_of_mem _ (i1 g hg), fun h => (tag_entryDels ts (i2 h)).1, ?_⟩
      rcases i3 with i3 | ⟨j1, ⟨g, hg, hx⟩, j3⟩
      · rw [i3, removes_map]
        by_cases hx : x ∈ ts
        · rw [if_pos hx]
          exact .inr ⟨rfl, ⟨_, List.mem_cons_self, hx⟩, fun h => (tag_entryDels ts (i2 h)).2 hx⟩
        · rw [if_neg hx]; exact .inl rfl
      · exact .inr ⟨j1, ⟨g, List.mem_cons_of_mem _ hg, hx⟩, j3⟩

theorem ss_maintain (x : Nat) (now : Duration) (s : Sess) (t : TagMap) :
    (Live x (s.maintain now t).1 → Live x s) ∧ (Old x (s.maintain now t).1 → Old x s) ∧ (Rep x (s.maintain now t).1 → Rep x s) ∧
    ((s.maintain now t).2.map x = t.map x ∨ ((s.maintain now t).2.map x = none ∧
      ((Rep x s ∧ ¬ Rep x (s.maintain now t).1) ∨ (Old x s ∧ ¬ Live x (s.maintain now t).1)))) := by
  cases hn : s.nsr with
  | none =>
    obtain ⟨i1, i2, i3⟩ := ex_expire x now s.expiring s.entries t
    have e : s.maintain now t = ({ s with expiring := (Sess.expire now s.expiring s.entries t).1, entries := (Sess.expire now s.expiring s.entries t).2.1 },
        (Sess.expire now s.expiring s.entries t).2.2) := by simp only [Sess.maintain, hn]
    rw [e]
    refine ⟨i2, fun ⟨g, hg, hx⟩ => ⟨g, i1 g hg, hx⟩, id, i3.imp id fun ⟨j1, j2, j3⟩ => ⟨j1, .inr ⟨j2, j3⟩⟩⟩
  | some n =>
    obtain ⟨c, nsr, o⟩ := n
    by_cases hlt : now < c + nsrMaxAge
    · obtain ⟨i1, i2, i3⟩ := ex_expire x now s.expiring s.entries t
      have e : s.maintain now t = ({ s with expiring := (Sess.expire now s.expiring s.entries t).1, entries := (Sess.expire now s.expiring s.entries t).2.1 },
          (Sess.expire now s.expiring s.entries t).2.2) := by simp only [Sess.maintain, hn, if_pos hlt]
      rw [e]
      refine ⟨i2, fun ⟨g, hg, hx⟩ => ⟨g, i1 g hg, hx⟩, id, i3.imp id fun ⟨j1, j2, j3⟩ => ⟨j1, .inr ⟨j2, j3⟩⟩⟩
    · let t1 := t.removes (nsr.map fun y => y.2.tag)
      obtain ⟨i1, i2, i3⟩ := ex_expire x now s.expiring s.entries t1
      have e : s.maintain now t = ({ s with nsr := none, expiring := (Sess.expire now s.expiring s.entries t1).1, entries := (Sess.expire now s.expiring s.entries t1).2.1 },
          (Sess.expire now s.expiring s.entries t1).2.2) := by simp only [Sess.maintain, hn, if_neg hlt]; rfl
      rw [e]
      have nr : ¬ Rep x { s with nsr := none, expiring := (Sess.expire now s.expiring s.entries t1).1, entries := (Sess.expire now s.expiring s.entries t1).2.1 } := by
        rintro ⟨_, _, _, h, _⟩; cases h
      refine ⟨i2, fun ⟨g, hg, hx⟩ => ⟨g, i1 g hg, hx⟩, fun h => absurd h nr, ?_⟩
      rcases i3 with i3 | ⟨j1, j2, j3⟩
      · rw [i3, removes_map]
        by_cases hx : x ∈ nsr.map fun y => y.2.tag
        · rw [if_pos hx]; exact .inr ⟨rfl, .inl ⟨⟨c, nsr, o, hn, hx⟩, nr⟩⟩
        · rw [if_neg hx]; exact .inl rfl
      · exact .inr ⟨j1, .inr ⟨j2, j3⟩⟩

theorem Kept.perm {x : Nat} {t : TagMap} {act act' : Assoc Active} {pend : Assoc Pending} (h : Kept x t act pend) (hp : act'.Perm act) : Kept x t act' pend where
  keys := (hp.map _).nodup_iff.2 h.keys
  apart d a p ha := h.apart d a p (hp.mem_iff.1 ha)
  own := h.own.less rfl (.inl rfl) fun d =>
    ⟨fun h => h.imp (fun ⟨a, ha, hl⟩ => ⟨a, hp.mem_iff.1 ha, hl⟩) id, fun ⟨a, ha, hl⟩ => ⟨a, hp.mem_iff.1 ha, hl⟩,
     fun h => h.imp (fun ⟨a, ha, hl⟩ => ⟨a, hp.mem_iff.1 ha, hl⟩) id⟩

theorem Kept.pendSub {x : Nat} {t : TagMap} {act : Assoc Active} {pend pend' : Assoc Pending} (h : Kept x t act pend)
    (hp : ∀ y ∈ pend', y ∈ pend ∨ ∃ i, y.2.state = .inbound i []) : Kept x t act pend' where
  keys := h.keys
  apart d a p ha hm := (hp _ hm).elim (h.apart d a p ha) id
  own := h.own.less rfl (.inl rfl) fun d => by
    refine ⟨fun h => h.imp id fun ⟨p, hm, hl⟩ => ?_, id, fun h => h.imp id fun ⟨p, hm, hl⟩ => ?_⟩
    · rcases hp _ hm with hm | ⟨i, e⟩
      · exact ⟨p, hm, hl⟩
      · dsimp only at e; rw [e] at hl; simp [PLive] at hl
    · rcases hp _ hm with hm | ⟨i, e⟩
      · exact ⟨p, hm, hl⟩
      · dsimp only at e; rw [e] at hl; exact hl.elim

theorem Kept.headDel {x : Nat} {t : TagMap} {act : Assoc Active} {pend : Assoc Pending} {d : Bytes} {a : Active} (h : Kept x t ((d, a) :: act) pend) :
    Kept x (a.s.destroy t) act pend := by
  have := h.actDel (d := d) (a := a) List.mem_cons_self
  have e : Assoc.del ((d, a) :: act) d = act := by
    have hk := h.keys
    rw [List.map_cons, List.nodup_cons] at hk
    rw [Assoc.del, List.filter_cons_of_neg (by simp), List.filter_eq_self]
    intro y hy
    have : y.1 ≠ d := fun e => hk.1 (e ▸ List.mem_map_of_mem (f := (·.1)) hy)
    simpa using this
  rw [e] at this
  exact this

theorem Kept.destroys {x : Nat} {act : Assoc Active} {pend : Assoc Pending} (l : Assoc Active) : ∀ t : TagMap, Kept x t (l ++ act) pend →
    Kept x (l.foldl (fun t y => y.2.s.destroy t) t) act pend := by
  induction l with
  | nil => intro t h; exact h
  | cons y l ih => intro t h; exact ih _ h.headDel

theorem Kept.maintainOne {x : Nat} {t : TagMap} {act : Assoc Active} {pend : Assoc Pending} {d : Bytes} {a : Active} (now : Duration)
    (h : Kept x t ((d, a) :: act) pend) : Kept x (a.s.maintain now t).2 ((d, { a with s := (a.s.maintain now t).1 }) :: act) pend where
  keys := by have := h.keys; rwa [List.map_cons] at this ⊢
  apart e b p hb hp := by
    rcases List.mem_cons.1 hb with hb | hb
    · injection hb with h1 h2
      subst h1
      exact h.apart e a p List.mem_cons_self hp
    · exact h.apart e b p (List.mem_cons_of_mem _ hb) hp
  own := by
    obtain ⟨m1, m2, m3, m4⟩ := ss_maintain x now a.s t
    have hlog : (a.s.maintain now t).2.log = t.log := (shrinks_maintainS ..).1
    have hk := h.keys
    rw [List.map_cons, List.nodup_cons] at hk
    have hd : ∀ b, (d, b) ∉ act := fun b hb => hk.1 (List.mem_map_of_mem (f := (·.1)) hb)
    have sub : ∀ e, (WL x ((d, { a with s := (a.s.maintain now t).1 }) :: act) pend e → WL x ((d, a) :: act) pend e) ∧
        (WO x ((d, { a with s := (a.s.maintain now t).1 }) :: act) e → WO x ((d, a) :: act) e) ∧
        (WN x ((d, { a with s := (a.s.maintain now t).1 }) :: act) pend e → WN x ((d, a) :: act) pend e) := by
      intro e
      refine ⟨fun h => h.imp (fun ⟨b, hb, hl⟩ => ?_) id, fun ⟨b, hb, hl⟩ => ?_, fun h => h.imp (fun ⟨b, hb, hl⟩ => ?_) id⟩
      all_goals
        rcases List.mem_cons.1 hb with hb | hb
        · injection hb with h1 h2
          subst h1 h2
          first
          | exact ⟨a, List.mem_cons_self, m1 hl⟩
          | exact ⟨a, List.mem_cons_self, m2 hl⟩
          | exact ⟨a, List.mem_cons_self, m3 hl⟩
        · exact ⟨b, List.mem_cons_of_mem _ hb, hl⟩
    refine h.own.less hlog (m4.imp id fun ⟨n1, n2⟩ => ⟨n1, fun hc e => ?_⟩) sub
    obtain ⟨o, _, ho⟩ := h.own.own hc
    have hpe : ∀ p, (d, p) ∈ pend → ¬ PLive x p.state ∧ ¬ PRep x p.state := fun p hp => h.empty List.mem_cons_self hp
    rcases n2 with ⟨n2, n3⟩ | ⟨n2, n3⟩
    · have od := (ho d).2.1 (.inl ⟨a, List.mem_cons_self, n2⟩)
      refine ⟨fun hl => ?_, fun hl => ?_⟩
      · have := (ho e).1 (.inl ((sub e).1 hl)); rw [od] at this; simp at this
      · have := (ho e).2.1 ((sub e).2.2 hl)
        rw [od] at this
        obtain rfl : d = e := by simpa using this
        rcases hl with ⟨b, hb, hl⟩ | ⟨p, hp, hl⟩
        · rcases List.mem_cons.1 hb with hb | hb
          · injection hb with h1 h2
            subst h2
            exact n3 hl
          · exact hd b hb
        · exact (hpe p hp).2 hl
    · have od := (ho d).1 (.inr ⟨a, List.mem_cons_self, n2⟩)
      refine ⟨fun hl => ?_, fun hl => ?_⟩
      · have := (ho e).1 (.inl ((sub e).1 hl))
        rw [od] at this
        obtain rfl : d = e := by simpa using this
        rcases hl with ⟨b, hb, hl⟩ | ⟨p, hp, hl⟩
        · rcases List.mem_cons.1 hb with hb | hb
          · injection hb with h1 h2
            subst h2
            exact n3 hl
          · exact hd b hb
        · exact (hpe p hp).1 hl
      · have := (ho e).2.1 ((sub e).2.2 hl); rw [od] at this; simp at this

theorem Kept.maintainAll {x : Nat} {pend : Assoc Pending} (now : Duration) (l : Assoc Active) : ∀ (done : Assoc Active) (t : TagMap), Kept x t (done ++ l) pend →
    Kept x (maintainAll now l t).2 (done ++ (maintainAll now l t).1) pend := by
  induction l with
  | nil => intro done t h; exact h
  | cons y l ih =>
    obtain ⟨d, a⟩ := y
    intro done t h
    have h1 := (h.perm (List.perm_middle (a := (d, a)) (l₁ := done) (l₂ := l)).symm).maintainOne now
    have h2 := h1.perm (act' := (done ++ [(d, { a with s := (a.s.maintain now t).1 })]) ++ l) (by
      rw [List.append_assoc]; exact List.perm_middle)
    have h3 := ih _ _ h2
    rw [List.append_assoc] at h3
    exact h3

theorem Kept.maintain {x : Nat} {m : Mgr} (now : Duration) (h : Kept x m.tags m.active m.pending) :
    Kept x (m.maintain now).tags (m.maintain now).active (m.maintain now).pending := by
  have h1 := h.pendSub (pend' := m.pending.filter fun y => !y.2.expired now) fun y hy => .inl (List.mem_filter.1 hy).1
  have h2 := h1.perm (List.filter_append_perm (fun y => y.2.idle now) m.active)
  have h3 := Kept.destroys _ _ h2
  exact Kept.maintainAll now _ [] _ h3

/-! ## The calls -/

abbrev KM (x : Nat) (m : Mgr) : Prop := Kept x m.tags m.active m.pending

theorem encrypt_keeps (C : Cfg) (v : Draw) (bs : List Block) (s : Sess) :
    (s.encrypt C v bs).2.entries = s.entries ∧ (s.encrypt C v bs).2.expiring = s.expiring ∧ (s.encrypt C v bs).2.nsr = s.nsr := by
  simp only [Sess.encrypt]
  split
  · exact ⟨rfl, rfl, rfl⟩
  · split
    · exact ⟨rfl, rfl, rfl⟩
    · exact ⟨rfl, rfl, rfl⟩
    · split <;> exact ⟨rfl, rfl, rfl⟩

theorem encrypt_eq {C : Cfg} {v : Draw} {bs : List Block} {s s' : Sess} {r : Out (Nat × Nat × Bytes)} (h : s.encrypt C v bs = (r, s')) :
    s'.entries = s.entries ∧ s'.expiring = s.expiring ∧ s'.nsr = s.nsr := by
  have := encrypt_keeps C v bs s
  rwa [h] at this

theorem km_remove {x : Nat} {m : Mgr} (h : KM x m) (d : Bytes) : KM x (m.removeSession d) := by
  simp only [Mgr.removeSession]
  split
  · exact h
  · next a ha => exact h.actDel (get_mem ha)

theorem km_same {x : Nat} {m : Mgr} (h : KM x m) {d : Bytes} {a a' : Active} (ha : m.active.get d = some a) (e1 : a'.s.entries = a.s.entries)
    (e2 : a'.s.expiring = a.s.expiring) (e3 : a'.s.nsr = a.s.nsr) : Kept x m.tags (m.active.put d a') m.pending :=
  h.actPut (get_mem ha) (.keep e1 e2 e3)

theorem km_encrypt {x : Nat} {m : Mgr} (C : Cfg) (v : Draw) (d msg : Bytes) (h : KM x m) : KM x (m.encrypt C v d msg).2 := by
  unfold Mgr.encrypt
  split
  · next a ha =>
    dsimp only
    split
    · exact h
    · next hs => have e := encrypt_eq hs
                 exact km_remove (m := { m with active := _ }) (km_same h ha e.1 e.2.1 e.2.2) d
    · next hs => have e := encrypt_eq hs
                 exact km_same h ha e.1 e.2.1 e.2.2
    · next hs => have e := encrypt_eq hs
                 refine km_same h ha ?_ ?_ ?_ <;> split
                 · exact e.1
                 · exact e.1
                 · exact e.2.1
                 · exact e.2.1
                 · exact e.2.2
                 · exact e.2.2
  · next hn =>
    split
    · next p hp =>
      obtain ⟨k1, k2⟩ := pp_out x C v m.ctx m.id d m.leaseSet msg m.tags p.state
      have hl : PLive x p.state → WL x m.active m.pending d := fun h => .inr ⟨p, get_mem hp, h⟩
      have hr : PRep x p.state → WN x m.active m.pending d := fun h => .inr ⟨p, get_mem hp, h⟩
      split
      · exact h
      · next he => rw [he] at k1; exact h.pendPut hn hl hr k1
      · next he => rw [he] at k1; exact h.pendPut hn hl hr k1
      · next he =>
        rw [he] at k2
        obtain ⟨e1, e2, e3, e4⟩ := k2 _ _ _ _ rfl
        dsimp only at e1
        subst e1
        exact h.create (get_mem hp) e2 e3 e4
      · exact h
    · split
      · exact h
      · split
        · exact h
        · split
          · exact h
          · next he =>
            simp only [Pending.outbound, Option.bind_eq_bind, Option.pure_def, Option.bind_eq_some_iff, Option.some.injEq, Prod.mk.injEq] at he
            obtain ⟨es, _, rfl, rfl⟩ := he
            refine h.pendPut hn (l := False) (r := False) False.elim False.elim (.add _ (fun h => by simp [PLive] at h) (fun h => ?_) (.inr (fun h => by simp [PLive] at h)))
            exact (tag_nsrPuts _ _ _ h).imp (fun h => by simp at h) id

theorem km_less {x tag : Nat} {m : Mgr} (h : KM x m) (hx : x ≠ tag) : KM x { m with tags := m.tags.remove tag } :=
  ⟨h.keys, h.apart, h.own.less rfl (.inl (by simp [TagMap.remove, hx])) fun _ => ⟨id, id, id⟩⟩

theorem km_tagged {x : Nat} {m : Mgr} (C : Cfg) (v : Draw) (d : Bytes) (tag : Nat) (msg : Bytes) (h : KM x m) (hd : m.tags.map tag = some d) :
    ({ m with tags := m.tags.remove tag }.decryptTagged C v d tag msg).1 ≠ .panic →
      KM x ({ m with tags := m.tags.remove tag }.decryptTagged C v d tag msg).2 := by
  by_cases hx : x = tag
  · subst hx
    unfold Mgr.decryptTagged
    split
    · next a ha =>
      have k1 := ss_decrypt x C v d x msg a.s (m.tags.remove x)
      have k2 : m.tags.log.count x ≤ 1 → _ := fun hc => ss_used x C v d msg a.s (m.tags.remove x) (by
        obtain ⟨o, _, ho⟩ := h.own.own hc
        intro hl hr
        have h1 := (ho d).1 (.inl (.inl ⟨a, get_mem ha, hl⟩))
        have h2 := (ho d).2.1 (.inl ⟨a, get_mem ha, hr⟩)
        rw [h1] at h2; simp at h2)
      dsimp only
      split
      · exact fun h => absurd rfl h
      · next he => rw [he] at k1 k2; exact fun _ => h.actUse (get_mem ha) hd k1 k2
      · next he =>
        rw [he] at k1 k2
        exact fun _ => km_remove (m := { m with tags := _, active := _ }) (h.actUse (get_mem ha) hd k1 k2) d
      · next he => rw [he] at k1 k2; exact fun _ => h.actUse (get_mem ha) hd k1 k2
    · next hn =>
      split
      · next p hp =>
        obtain ⟨k1, k2, k3⟩ := pp_in x C d x msg (m.tags.remove x) p.state
        have k3 : m.tags.log.count x ≤ 1 → _ := fun hc => k3 rfl (by
          obtain ⟨o, _, ho⟩ := h.own.own hc
          intro hl hr
          have h1 := (ho d).1 (.inl (.inr ⟨p, get_mem hp, hl⟩))
          have h2 := (ho d).2.1 (.inr ⟨p, get_mem hp, hr⟩)
          rw [h1] at h2; simp at h2)
        dsimp only
        split
        · exact fun h => absurd rfl h
        · next he => rw [he] at k1 k3; exact fun _ => h.pendUse hn (get_mem hp) hd k1 k3
        · next he =>
          rw [he] at k2
          obtain ⟨e1, e2, e3, e4⟩ := k2 _ _ _ _ rfl
          dsimp only at e1
          subst e1
          exact fun _ => h.createUse hd e2 (fun h => (e3 h).2 rfl) e4
        · next he => rw [he] at k1 k3; exact fun _ => h.pendUse hn (get_mem hp) hd k1 k3
        · exact fun h => absurd rfl h
      · next hp =>
        intro _
        refine ⟨h.keys, h.apart, h.own.less rfl (.inr ⟨by simp [TagMap.remove], fun hc e => ?_⟩) fun _ => ⟨id, id, id⟩⟩
        obtain ⟨o, _, ho⟩ := h.own.own hc
        have key : WL x m.active m.pending e ∨ WN x m.active m.pending e → False := by
          intro hw
          have := (ho e).2.2 hw
          rw [hd] at this
          obtain rfl : d = e := by simpa using this
          rcases hw with (⟨a, ha, _⟩ | ⟨p, hq, _⟩) | (⟨a, ha, _⟩ | ⟨p, hq, _⟩)
          · exact get_none hn a ha
          · exact get_none hp p hq
          · exact get_none hn a ha
          · exact get_none hp p hq
        exact ⟨fun h => key (.inl h), fun h => key (.inr h)⟩
  · have h0 := km_less h hx
    generalize { m with tags := m.tags.remove tag } = m at h0
    intro _
    unfold Mgr.decryptTagged
    split
    · next a ha =>
      have k1 := ss_decrypt x C v d tag msg a.s m.tags
      split
      · exact h0
      · next he => rw [he] at k1; exact h0.actPut (get_mem ha) k1
      · next he => rw [he] at k1; exact km_remove (m := { m with tags := _, active := _ }) (h0.actPut (get_mem ha) k1) d
      · next he => rw [he] at k1; exact h0.actPut (get_mem ha) k1
    · next hn =>
      split
      · next p hp =>
        obtain ⟨k1, k2, _⟩ := pp_in x C d tag msg m.tags p.state
        have hl : PLive x p.state → WL x m.active m.pending d := fun h => .inr ⟨p, get_mem hp, h⟩
        have hr : PRep x p.state → WN x m.active m.pending d := fun h => .inr ⟨p, get_mem hp, h⟩
        split
        · exact h0
        · next he => rw [he] at k1; exact h0.pendPut hn hl hr k1
        · next he =>
          rw [he] at k2
          obtain ⟨e1, e2, e3, e4⟩ := k2 _ _ _ _ rfl
          dsimp only at e1
          subst e1
          exact h0.create (get_mem hp) e2 (fun h => (e3 h).1) (fun h => absurd h e4)
        · next he => rw [he] at k1; exact h0.pendPut hn hl hr k1
        · exact h0
      · exact h0

theorem km_blocks {x : Nat} (d : Bytes) (tag : Nat × Nat) (bs : List Block) : ∀ m : Mgr, KM x m → KM x (Mgr.blocks d tag bs m).2.2 := by
  induction bs with
  | nil => intro m h; exact h
  | cons b bs ih =>
    intro m h
    cases b with
    | clove type id expiration delivery body => exact ih m h
    | ackRequest =>
      simp only [Mgr.blocks]
      split
      · next a ha => exact ih _ (km_same h ha rfl rfl rfl)
      · exact ih m h
    | ack acks =>
      simp only [Mgr.blocks]
      split
      · next a ha =>
        refine ih _ (km_same h ha ?_ ?_ ?_) <;> split <;> rfl
      · exact ih m h
    | _ => exact ih m h

theorem km_finish {x : Nat} (C : Cfg) (d : Bytes) (tag : Nat × Nat) (plain : Bytes) {m : Mgr} (h : KM x m) : KM x (m.finish C d tag plain).2 := by
  simp only [Mgr.finish]
  split
  · exact h
  · next bs _ => split <;> exact km_blocks d tag bs m h

theorem km_new {x : Nat} (C : Cfg) (v : Draw) (msg : Bytes) {m : Mgr} (h : KM x m) : KM x (m.decryptNew C v msg).2 := by
  unfold Mgr.decryptNew
  split
  · exact h
  · split
    · exact h
    · split
      · exact h
      · split
        · exact h
        · split
          · exact h
          · dsimp only
            split
            · refine h.pendSub fun y hy => ?_
              obtain ⟨e, b⟩ := y
              rcases mem_put.1 hy with hy | hy
              · exact .inl hy.1
              · exact .inr ⟨_, by rw [hy.2]; rfl⟩
            · exact h

theorem km_decrypt {x : Nat} (C : Cfg) (v : Draw) (msg : Bytes) {m : Mgr} (h : KM x m) : (m.decrypt C v msg).1 ≠ .panic → KM x (m.decrypt C v msg).2 := by
  unfold Mgr.decrypt
  split
  · exact fun h => absurd rfl h
  · split
    · have h1 := km_new (x := x) C v msg h
      split
      · next he => rw [he] at h1; exact fun _ => h1
      · next he => rw [he] at h1; exact fun _ => km_finish C _ _ _ h1
    · next tag _ _ d hd =>
      have h1 := km_tagged (x := x) C v d tag msg h hd
      split
      · exact fun h => absurd rfl h
      · next he => rw [he] at h1; exact fun _ => h1 (by simp)
      · next he => rw [he] at h1; exact fun _ => km_finish C _ _ _ (h1 (by simp))

theorem km_publish {x : Nat} (C : Cfg) (v : Draw) (d : Bytes) {m : Mgr} (h : KM x m) : KM x (m.publish C v d).2 := by
  unfold Mgr.publish
  split
  · exact h
  · next a ha =>
    split
    · exact h
    · have e := encrypt_keeps C v [storeClove v 0 m.id m.leaseSet, .ackRequest] a.s
      split
      · exact h
      · next hs => rw [hs] at e; exact km_same h ha e.1 e.2.1 e.2.2
      · next hs => rw [hs] at e; exact km_same h ha e.1 e.2.1 e.2.2

theorem km_register {x : Nat} (ls : Bytes) {m : Mgr} (h : KM x m) : KM x (m.registerLeaseSet ls) := by
  have hm : ∀ d a, (d, a) ∈ (m.registerLeaseSet ls).active → ∃ b, (d, b) ∈ m.active ∧ a.s = b.s := by
    intro d a ha
    obtain ⟨⟨e, b⟩, hb, he⟩ := List.mem_map.1 ha
    injection he with h1 h2
    subst h1 h2
    exact ⟨b, hb, rfl⟩
  refine ⟨?_, ?_, ?_⟩
  · have := h.keys
    simpa [Mgr.registerLeaseSet, List.map_map, Function.comp_def] using this
  · intro d a p ha hp
    obtain ⟨b, hb, _⟩ := hm d a ha
    exact h.apart d b p hb hp
  · refine h.own.less rfl (.inl rfl) fun d => ⟨fun h => h.imp (fun ⟨a, ha, hl⟩ => ?_) id, fun ⟨a, ha, hl⟩ => ?_, fun h => h.imp (fun ⟨a, ha, hl⟩ => ?_) id⟩
    all_goals
      obtain ⟨b, hb, e⟩ := hm d a ha
      exact ⟨b, hb, e ▸ hl⟩

theorem km_step {x : Nat} (C : Cfg) (o : Op) {m : Mgr} (h : KM x m) (hc : (m.step C o).1.aborted = false) : KM x (m.step C o).2 := by
  cases o with
  | addRemote d pk => exact h
  | registerLeaseSet ls => exact km_register ls h
  | encrypt v d msg => exact km_encrypt C v d msg h
  | decrypt v msg =>
    refine km_decrypt C v msg h fun e => ?_
    simp only [Mgr.step, e, Ret.aborted] at hc
    cases hc
  | publish v d => exact km_publish C v d h
  | maintain now => exact h.maintain now

theorem km_run {x : Nat} (C : Cfg) (ops : List Op) : ∀ {m : Mgr}, KM x m → Calm C m ops → KM x (m.run C ops) := by
  induction ops with
  | nil => intro m h _; exact h
  | cons o ops ih => intro m h hc; exact ih (km_step C o h hc.1) hc.2

/-- C265: however the calls of an identity's garlic code follow each other, a tag that a session could still read a message with — open or
being opened, of its tag sets or for replies to its requests — is one that arriving messages are matched with, and it leads to that session's
peer: provided that the tag did not collide with another one (it was generated once). So no message is lost because its tag was forgotten
while the session still had the key for it. -/
theorem C265_watched (C : Cfg) (id sk ls : Bytes) (ops : List Op) (hc : Calm C (Mgr.new C id sk ls) ops) (d : Bytes) (x : Nat)
    (h1 : ((Mgr.new C id sk ls).run C ops).tags.log.count x ≤ 1) (hw : Waits ((Mgr.new C id sk ls).run C ops) d x) :
    ((Mgr.new C id sk ls).run C ops).tags.map x = some d := by
  have h0 : KM x (Mgr.new C id sk ls) := by
    refine ⟨List.nodup_nil, fun d a p h => (List.not_mem_nil h).elim, fun h => absurd rfl h, fun _ => ⟨none, fun h => absurd rfl h, fun d => ?_⟩⟩
    refine ⟨?_, ?_, ?_⟩
    · rintro ((⟨a, ha, _⟩ | ⟨a, ha, _⟩) | ⟨a, ha, _⟩) <;> exact (List.not_mem_nil ha).elim
    · rintro (⟨a, ha, _⟩ | ⟨a, ha, _⟩) <;> exact (List.not_mem_nil ha).elim
    · rintro ((⟨a, ha, _⟩ | ⟨a, ha, _⟩) | (⟨a, ha, _⟩ | ⟨a, ha, _⟩)) <;> exact (List.not_mem_nil ha).elim
  have hk := km_run C ops h0 hc
  obtain ⟨o, _, ho⟩ := hk.own.own h1
  refine (ho d).2.2 ?_
  rcases hw with ⟨a, ha, hx⟩ | ⟨p, hp, hx⟩
  · rw [Sess.readable, List.mem_append] at hx
    rcases hx with hx | hx
    · exact .inl (.inl ⟨a, get_mem ha, hx⟩)
    · refine .inr (.inl ⟨a, get_mem ha, ?_⟩)
      cases hn : a.s.nsr with
      | none => rw [hn] at hx; simp at hx
      | some n =>
        obtain ⟨c, n, o⟩ := n
        rw [hn] at hx
        exact ⟨c, n, o, hn, hx⟩
  · cases hs : p.state with
    | inbound i es => rw [hs] at hx; exact .inl (.inr ⟨p, get_mem hp, by rw [hs]; exact hx⟩)
    | awaitNsr _ _ nsr es =>
      rw [hs, PState.readable, List.mem_append] at hx
      exact hx.imp (fun h => .inr ⟨p, get_mem hp, by rw [hs]; exact h⟩) fun h => .inr ⟨p, get_mem hp, by rw [hs]; exact h⟩
    | awaitEs _ _ _ _ nsr es =>
      rw [hs, PState.readable, List.mem_append] at hx
      exact hx.imp (fun h => .inr ⟨p, get_mem hp, by rw [hs]; exact h⟩) fun h => .inr ⟨p, get_mem hp, by rw [hs]; exact h⟩
    | poisoned => rw [hs] at hx; cases hx

/-- It has asked a destination for a session, got an answer and sent something: it waits for messages of the session and for further answers. -/
example : Calm storeCfg (Mgr.new storeCfg idA [2] [3]) upkeepOps ∧ ∃ x y, x ≠ y ∧
    Waits ((Mgr.new storeCfg idA [2] [3]).run storeCfg upkeepOps) idB x ∧ ((Mgr.new storeCfg idA [2] [3]).run storeCfg upkeepOps).tags.log.count x ≤ 1 ∧
    Waits ((Mgr.new storeCfg idA [2] [3]).run storeCfg upkeepOps) idB y ∧ ((Mgr.new storeCfg idA [2] [3]).run storeCfg upkeepOps).tags.log.count y ≤ 1 := by
  refine ⟨⟨by decide +kernel, by decide +kernel, by decide +kernel, by decide +kernel, trivial⟩, ?_⟩
  have h : ∃ a, ((Mgr.new storeCfg idA [2] [3]).run storeCfg upkeepOps).active.get idB = some a ∧ 1 < a.s.readable.length ∧ a.s.readable.Nodup ∧
      ∀ x ∈ a.s.readable, ((Mgr.new storeCfg idA [2] [3]).run storeCfg upkeepOps).tags.log.count x ≤ 1 := by
    have h0 : (((Mgr.new storeCfg idA [2] [3]).run storeCfg upkeepOps).active.get idB).any (fun a => decide (1 < a.s.readable.length ∧ a.s.readable.Nodup ∧
        ∀ x ∈ a.s.readable, ((Mgr.new storeCfg idA [2] [3]).run storeCfg upkeepOps).tags.log.count x ≤ 1)) = true := by decide +kernel
    generalize ((Mgr.new storeCfg idA [2] [3]).run storeCfg upkeepOps) = m at *
    cases hg : m.active.get idB with
    | none => rw [hg] at h0; cases h0
    | some a => rw [hg] at h0; exact ⟨a, rfl, of_decide_eq_true h0⟩
  obtain ⟨a, ha, h1, h2, h3⟩ := h
  generalize ((Mgr.new storeCfg idA [2] [3]).run storeCfg upkeepOps) = m at *
  match hr : a.s.readable, h1, h2, h3 with
  | x :: y :: l, _, h2, h3 =>
    refine ⟨x, y, ?_, .inl ⟨a, ha, by simp [hr]⟩, h3 x (by simp), .inl ⟨a, ha, by simp [hr]⟩, h3 y (by simp)⟩
    rintro rfl
    simp at h2

/-! ## Whose key is used -/

theorem remotes_step (C : Cfg) (m : Mgr) (o : Op) : (m.step C o).2.remotes = match o with | .addRemote d pk => m.remotes.put d pk | _ => m.remotes := by
  have hrem : ∀ (m : Mgr) d, (m.removeSession d).remotes = m.remotes := by intro m d; unfold Mgr.removeSession; split <;> rfl
  have hbl : ∀ d tag (bs : List Block) (m : Mgr), (Mgr.blocks d tag bs m).2.2.remotes = m.remotes := by
    intro d tag bs
    induction bs with
    | nil => intro m; rfl
    | cons b bs ih =>
      intro m
      cases b with
      | clove type id expiration delivery body => exact ih m
      | ackRequest => simp only [Mgr.blocks]; split <;> exact ih _
      | ack acks => simp only [Mgr.blocks]; split <;> exact ih _
      | _ => exact ih m
  have hfin : ∀ d tag plain (m : Mgr), (m.finish C d tag plain).2.remotes = m.remotes := by
    intro d tag plain m
    simp only [Mgr.finish]
    split
    · rfl
    · split <;> exact hbl ..
  cases o with
  | addRemote d pk => rfl
  | registerLeaseSet ls => rfl
  | encrypt v d msg =>
    show (m.encrypt C v d msg).2.remotes = _
    unfold Mgr.encrypt
    split
    · dsimp only
      split
      · rfl
      · exact hrem ..
      · rfl
      · rfl
    · split
      · split <;> rfl
      · split
        · rfl
        · split
          · rfl
          · split <;> rfl
  | decrypt v msg =>
    show (m.decrypt C v msg).2.remotes = _
    have hnew : (m.decryptNew C v msg).2.remotes = m.remotes := by
      unfold Mgr.decryptNew
      split
      · rfl
      · split
        · rfl
        · split
          · rfl
          · split
            · rfl
            · split
              · rfl
              · dsimp only; split <;> rfl
    have htag : ∀ (m : Mgr) d tag, (m.decryptTagged C v d tag msg).2.remotes = m.remotes := by
      intro m d tag
      unfold Mgr.decryptTagged
      split
      · split
        · rfl
        · rfl
        · exact hrem ..
        · rfl
      · split
        · split <;> rfl
        · rfl
    unfold Mgr.decrypt
    split
    · rfl
    · split
      · split
        · next he => rw [he] at hnew; exact hnew
        · next he => rw [he] at hnew; exact (hfin ..).trans hnew
      · next tag _ _ d hd =>
        have ht := htag { m with tags := m.tags.remove tag } d tag
        split
        · next he => rw [he] at ht; exact ht
        · next he => rw [he] at ht; exact ht
        · next he => rw [he] at ht; exact (hfin ..).trans ht
  | publish v d =>
    show (m.publish C v d).2.remotes = _
    unfold Mgr.publish
    split
    · rfl
    · split
      · rfl
      · split <;> rfl
  | maintain now => rfl

/-- C114: a request for a session is sealed to the key that was registered last for its recipient, whatever happened since and whatever keys
were registered for others. -/
theorem C114_recipient (C : Cfg) (m : Mgr) (d pk : Bytes) (ops : List Op) (v : Draw) (msg : Bytes) (hops : ∀ o ∈ ops, ∀ k, o ≠ .addRemote d k)
    (ha : (m.run C (.addRemote d pk :: ops)).active.get d = none) (hp : (m.run C (.addRemote d pk :: ops)).pending.get d = none) (out : Bytes)
    (he : ((m.run C (.addRemote d pk :: ops)).encrypt C v d msg).1 = .ok out) :
    ∃ o body, openSession C v (m.run C (.addRemote d pk :: ops)).ctx (m.run C (.addRemote d pk :: ops)).id d pk
      (m.run C (.addRemote d pk :: ops)).leaseSet msg = some (o, body) ∧ out = prefixed body := by
  have hr : ∀ (ops : List Op) (m : Mgr), (∀ o ∈ ops, ∀ k, o ≠ .addRemote d k) → m.remotes.get d = some pk → (m.run C ops).remotes.get d = some pk := by
    intro ops
    induction ops with
    | nil => intro m _ h; exact h
    | cons o ops ih =>
      intro m h1 h2
      refine ih _ (fun o ho => h1 o (by simp [ho])) ?_
      rw [remotes_step]
      split
      · next e k =>
        have : d ≠ e := fun h => h1 (.addRemote e k) (by simp) k (by rw [h])
        rw [Assoc.get_put_ne _ _ this]; exact h2
      · exact h2
  have h0 := hr ops (m.addRemote d pk) hops (by simp [Mgr.addRemote, Assoc.get_put])
  change (m.run C (.addRemote d pk :: ops)).remotes.get d = some pk at h0
  generalize m.run C (.addRemote d pk :: ops) = n at *
  unfold Mgr.encrypt at he
  rw [ha, hp, h0] at he
  dsimp only at he
  cases hs : openSession C v n.ctx n.id d pk n.leaseSet msg with
  | none => rw [hs] at he; cases he
  | some y =>
    obtain ⟨o, body⟩ := y
    rw [hs] at he
    dsimp only at he
    refine ⟨o, body, rfl, ?_⟩
    split at he
    · cases he
    · injection he with he; exact he.symm

example : ∃ out, (((Mgr.new storeCfg idA [2] [3]).run storeCfg (.addRemote idB (samplePrims.pub [3]) :: [.addRemote [9] (samplePrims.pub [4]), .maintain 5])).encrypt storeCfg askDraw idB [1, 2]).1 = .ok out := by
  have h : (match (((Mgr.new storeCfg idA [2] [3]).run storeCfg (.addRemote idB (samplePrims.pub [3]) :: [.addRemote [9] (samplePrims.pub [4]), .maintain 5])).encrypt storeCfg askDraw idB [1, 2]).1 with
    | .ok _ => true
    | _ => false) = true := by decide +kernel
  split at h
  · next out e => exact ⟨out, e⟩
  · cases h

end Emissary.Ecies
