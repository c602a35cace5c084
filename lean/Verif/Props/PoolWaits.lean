import Verif.Model.PoolWaits
import Verif.Props.PoolContext
/-!
# C297: a pool keeps listeners only for messages that are waited for
-/
namespace Emissary.PoolWaits

open Emissary.PoolCtx (Ctx step_change Change untag_spec)
open Emissary.I2np (Message)

/-! ## Specification -/

/-- Somebody waits for the message with this id. -/
def State.waited (s : State) (id : Nat) : Prop := ∃ w ∈ s.waits, w.id = id

/-- There is a listener for the message with this id. -/
def State.listens (s : State) (id : Nat) : Prop := s.ctx.listeners.get id ≠ none

/-- In this state the event is a dial that fails, or the end of the time of a test. -/
def Fails (s : State) : Op → Prop
  | .dialled _ ok => ok = false
  | .timeout ch => ∃ w ∈ s.waits, w.ch = ch ∧ w.kind = .test
  | _ => False

/-- No dial of the history fails and no test is too late. -/
def Well (chk : Bool) : State → List Op → Prop
  | _, [] => True
  | s, o :: ops => ¬Fails s o ∧ Well chk (s.step chk o) ops

/-! ## Proofs -/

/-- What holds in every history. -/
structure Inv (s : State) : Prop where
  inj : ∀ a b ch, s.ctx.listeners.get a = some ch → s.ctx.listeners.get b = some ch → a = b
  low : ∀ a ch, s.ctx.listeners.get a = some ch → ch < s.ctx.next
  same : ∀ w ∈ s.waits, ∀ w' ∈ s.waits, w.ch = w'.ch → w.id = w'.id
  lowW : ∀ w ∈ s.waits, w.ch < s.ctx.next

/-- What holds if nothing fails. -/
def Kept (s : State) : Prop := ∀ id ch, s.ctx.listeners.get id = some ch → ∃ w ∈ s.waits, w.id = id ∧ w.ch = ch

theorem add_cases (c : Ctx) (draws : List Nat) :
    (∃ id, c.listeners.get id = none ∧ c.add draws = ({ c with listeners := c.listeners.put id c.next, next := c.next + 1 }, .added id c.next)) ∨ c.add draws = (c, .done) := by
  unfold Ctx.add
  split
  · rename_i id h
    exact Or.inl ⟨id, by simpa using List.find?_some h, rfl⟩
  · exact Or.inr rfl

theorem tag_spec (chk : Bool) (c : Ctx) (id : Nat) (t : Bytes) : (c.tag chk id t).1.listeners = c.listeners ∧ (c.tag chk id t).1.next = c.next := by
  unfold Ctx.tag; split <;> exact ⟨rfl, rfl⟩

theorem remove_spec (c : Ctx) (id : Nat) : (c.remove id).listeners = c.listeners.del id ∧ (c.remove id).next = c.next := by
  obtain ⟨h1, h2, _⟩ := untag_spec { c with listeners := c.listeners.del id } id
  exact ⟨h1, h2⟩

/-- Fewer listeners and fewer tasks. -/
theorem Inv.less {s s' : State} (h : Inv s) (hl : ∀ id ch, s'.ctx.listeners.get id = some ch → s.ctx.listeners.get id = some ch) (hn : s.ctx.next ≤ s'.ctx.next)
    (hw : ∀ w ∈ s'.waits, ∃ w' ∈ s.waits, w'.id = w.id ∧ w'.ch = w.ch) : Inv s' where
  inj a b ch ha hb := h.inj a b ch (hl a ch ha) (hl b ch hb)
  low a ch ha := Nat.lt_of_lt_of_le (h.low a ch (hl a ch ha)) hn
  same w hw1 w' hw2 e := by
    obtain ⟨v, a, b, c⟩ := hw w hw1
    obtain ⟨v', a', b', c'⟩ := hw w' hw2
    rw [← b, ← b']
    exact h.same v a v' a' (by rw [c, c', e])
  lowW w hw1 := by
    obtain ⟨v, a, b, c⟩ := hw w hw1
    rw [← c]
    exact Nat.lt_of_lt_of_le (h.lowW v a) hn

theorem Inv.more {s : State} (h : Inv s) (id : Nat) (kind : Kind) (c : Ctx) (hc : c.listeners = s.ctx.listeners.put id s.ctx.next ∧ c.next = s.ctx.next + 1) :
    Inv { ctx := c, waits := ⟨id, s.ctx.next, kind⟩ :: s.waits } where
  inj a b ch ha hb := by
    simp only [hc.1, AMap.get_put] at ha hb
    split at ha <;> split at hb
    · rename_i e1 e2; rw [e1, e2]
    · cases ha; exact absurd (h.low _ _ hb) (Nat.lt_irrefl _)
    · cases hb; exact absurd (h.low _ _ ha) (Nat.lt_irrefl _)
    · exact h.inj a b ch ha hb
  low a ch ha := by
    simp only [hc.1, AMap.get_put] at ha
    simp only [hc.2]
    split at ha
    · cases ha; omega
    · have := h.low _ _ ha; omega
  same w hw w' hw' e := by
    rcases List.mem_cons.mp hw with rfl | hw <;> rcases List.mem_cons.mp hw' with rfl | hw'
    · rfl
    · have := h.lowW w' hw'; rw [← e] at this; exact absurd this (Nat.lt_irrefl _)
    · have := h.lowW w hw; rw [e] at this; exact absurd this (Nat.lt_irrefl _)
    · exact h.same w hw w' hw' e
  lowW w hw := by
    simp only [hc.2]
    rcases List.mem_cons.mp hw with rfl | hw
    · exact Nat.lt_succ_self _
    · have := h.lowW w hw; omega

theorem undone {c : Ctx} {id : Nat} (hid : c.listeners.get id = none) :
    (∀ a ch, (({ c with listeners := c.listeners.put id c.next, next := c.next + 1 } : Ctx).remove id).listeners.get a = some ch → c.listeners.get a = some ch) ∧
    c.next ≤ (({ c with listeners := c.listeners.put id c.next, next := c.next + 1 } : Ctx).remove id).next := by
  obtain ⟨h1, h2⟩ := remove_spec ({ c with listeners := c.listeners.put id c.next, next := c.next + 1 } : Ctx) id
  constructor
  · intro a ch ha
    rw [h1, AMap.get_del] at ha
    split at ha
    · cases ha
    · rename_i hne
      simp only [AMap.get_put] at ha
      rwa [if_neg hne] at ha
  · rw [h2]; exact Nat.le_succ _

theorem self_waits {s : State} : ∀ w ∈ s.waits, ∃ w' ∈ s.waits, w'.id = w.id ∧ w'.ch = w.ch := fun w hw => ⟨w, hw, rfl, rfl⟩

theorem sub_waits {s : State} (f : Wait → Bool) : ∀ w ∈ s.waits.filter f, ∃ w' ∈ s.waits, w'.id = w.id ∧ w'.ch = w.ch := fun w hw => ⟨w, (List.mem_filter.mp hw).1, rfl, rfl⟩

theorem find_mem {s : State} {ch : Nat} {w : Wait} (h : s.waits.find? (fun w => decide (w.ch = ch)) = some w) : w ∈ s.waits ∧ w.ch = ch :=
  ⟨List.mem_of_find?_eq_some h, by simpa using List.find?_some h⟩

theorem step_inv (chk : Bool) {s : State} (h : Inv s) (o : Op) : Inv (s.step chk o) ∧ (¬Fails s o → Kept s → Kept (s.step chk o)) := by
  cases o with
  | test draws sent =>
    rcases add_cases s.ctx draws with ⟨id, hid, e⟩ | e
    · simp only [State.step, e]
      cases sent with
      | true =>
        refine ⟨h.more id .test _ ⟨rfl, rfl⟩, fun _ k a ch ha => ?_⟩
        simp only [if_true, AMap.get_put] at ha
        split at ha
        · rename_i e; cases ha; exact ⟨_, List.mem_cons_self, e.symm, rfl⟩
        · obtain ⟨w, hw, x⟩ := k a ch ha; exact ⟨w, List.mem_cons_of_mem _ hw, x⟩
      | false =>
        obtain ⟨u1, u2⟩ := undone hid
        exact ⟨h.less u1 u2 self_waits, fun _ k a ch ha => k a ch (u1 a ch ha)⟩
    · simp only [State.step, e]; exact ⟨h, fun _ k => k⟩
  | build draws tag =>
    rcases add_cases s.ctx draws with ⟨id, hid, e⟩ | e
    · simp only [State.step, e]
      cases tag with
      | some t =>
        have ht := tag_spec chk ({ s.ctx with listeners := s.ctx.listeners.put id s.ctx.next, next := s.ctx.next + 1 } : Ctx) id t
        refine ⟨h.more id .dial _ ht, fun _ k a ch ha => ?_⟩
        simp only [ht.1, AMap.get_put] at ha
        split at ha
        · rename_i e; cases ha; exact ⟨_, List.mem_cons_self, e.symm, rfl⟩
        · obtain ⟨w, hw, x⟩ := k a ch ha; exact ⟨w, List.mem_cons_of_mem _ hw, x⟩
      | none =>
        obtain ⟨u1, u2⟩ := undone hid
        exact ⟨h.less u1 u2 self_waits, fun _ k a ch ha => k a ch (u1 a ch ha)⟩
    · simp only [State.step, e]; exact ⟨h, fun _ k => k⟩
  | dialled ch ok =>
    simp only [State.step]
    split
    · cases ok with
      | true =>
        refine ⟨h.less (fun _ _ x => x) (Nat.le_refl _) ?_, fun _ k a c ha => ?_⟩
        · intro w hw
          obtain ⟨v, hv, e⟩ := List.mem_map.mp hw
          refine ⟨v, hv, ?_⟩
          split at e <;> subst e <;> exact ⟨rfl, rfl⟩
        · obtain ⟨w, hw, x, y⟩ := k a c ha
          refine ⟨_, List.mem_map_of_mem hw, ?_⟩
          split <;> exact ⟨x, y⟩
      | false => exact ⟨h.less (fun _ _ x => x) (Nat.le_refl _) (sub_waits _), fun hf => absurd rfl hf⟩
    · exact ⟨h, fun _ k => k⟩
  | timeout ch =>
    simp only [State.step]
    split
    · rename_i id ch' hw
      obtain ⟨hm, hc⟩ := find_mem hw
      have hr := remove_spec s.ctx id
      have hl : ∀ a c, (s.ctx.remove id).listeners.get a = some c → s.ctx.listeners.get a = some c := by
        intro a c ha
        rw [hr.1, AMap.get_del] at ha
        split at ha
        · cases ha
        · exact ha
      refine ⟨h.less hl (by show _ ≤ (s.ctx.remove id).next; rw [hr.2]; exact Nat.le_refl _) (sub_waits _), fun _ k a c ha => ?_⟩
      have ha' : (s.ctx.remove id).listeners.get a = some c := ha
      have hne : a ≠ id := by
        intro e
        rw [hr.1, AMap.get_del, if_pos e] at ha'
        cases ha'
      obtain ⟨w, hw', x, y⟩ := k a c (hl a c ha')
      refine ⟨w, List.mem_filter.mpr ⟨hw', ?_⟩, x, y⟩
      simp only [ne_eq, decide_eq_true_eq]
      intro e
      exact hne (x ▸ h.same w hw' _ hm (e.trans hc.symm))
    · rename_i id ch' hw
      obtain ⟨hm, hc⟩ := find_mem hw
      exact ⟨h.less (fun _ _ x => x) (Nat.le_refl _) (sub_waits _), fun hf => absurd ⟨_, hm, hc, rfl⟩ hf⟩
    · exact ⟨h, fun _ k => k⟩
  | route m =>
    have hc := step_change chk s.ctx (.route m)
    simp only [Ctx.step] at hc
    simp only [State.step]
    generalize s.ctx.route chk m = x at hc
    obtain ⟨c, r⟩ := x
    have deliver : ∀ a ch, s.ctx.listeners.get a = some ch → c.listeners = s.ctx.listeners.del a → ∀ b d, c.listeners.get b = some d → s.ctx.listeners.get b = some d ∧ b ≠ a := by
      intro a ch _ e b d hb
      rw [e, AMap.get_del] at hb
      split at hb
      · cases hb
      · rename_i hne; exact ⟨hb, hne⟩
    cases hc with
    | same h1 hn hr =>
      have hl : ∀ a ch, c.listeners.get a = some ch → s.ctx.listeners.get a = some ch := fun a ch ha => by rw [← h1]; exact ha
      cases r with
      | listener ch => exact absurd rfl (hr ch)
      | _ => exact ⟨h.less hl (Nat.le_of_eq hn.symm) self_waits, fun _ k a ch ha => k a ch (hl a ch ha)⟩
    | added id _ _ _ draws ho _ => cases ho
    | removed id _ _ ho _ => cases ho
    | delivered id ch m' hg h1 hn ho hr hm =>
      have hl := deliver id ch hg h1
      by_cases hgone : ch ∈ s.ctx.gone
      · rw [if_pos hgone] at hr
        have hr' : r = .lost := hr
        subst hr'
        exact ⟨h.less (fun a c ha => (hl a c ha).1) (Nat.le_of_eq hn.symm) self_waits, fun _ k a c ha => k a c (hl a c ha).1⟩
      · rw [if_neg hgone] at hr
        have hr' : r = .listener ch := hr
        subst hr'
        refine ⟨h.less (fun a c ha => (hl a c ha).1) (Nat.le_of_eq hn.symm) (sub_waits _), fun _ k a d ha => ?_⟩
        obtain ⟨ha', hne⟩ := hl a d ha
        obtain ⟨w, hw, x, y⟩ := k a d ha'
        refine ⟨w, List.mem_filter.mpr ⟨hw, ?_⟩, x, y⟩
        simp only [ne_eq, decide_eq_true_eq]
        intro e
        exact hne (h.inj a id ch (by rw [ha', ← y, e]) hg)
  | ownerReads => exact ⟨h.less (fun _ _ x => x) (Nat.le_refl _) self_waits, fun _ k => k⟩
  | poolReads => exact ⟨h.less (fun _ _ x => x) (Nat.le_refl _) self_waits, fun _ k => k⟩

theorem inv_init : Inv {} := ⟨by simp, by simp, by simp, by simp⟩

theorem run_inv (chk : Bool) (ops : List Op) : ∀ {s : State}, Inv s → Inv (s.run chk ops) := by
  induction ops with
  | nil => intro s h; exact h
  | cons o ops ih => intro s h; exact ih (step_inv chk h o).1

/-- As long as no dial fails and no test is too late, there are listeners only for messages that are waited for. -/
theorem C297_kept_partial (chk : Bool) (ops : List Op) (well : Well chk {} ops) (id : Nat) (listens : (({} : State).run chk ops).listens id) :
    (({} : State).run chk ops).waited id := by
  have go : ∀ (ops : List Op) (s : State), Inv s → Kept s → Well chk s ops → Kept (s.run chk ops) := by
    intro ops
    induction ops with
    | nil => intro s _ k _; exact k
    | cons o ops ih => intro s h k w; exact ih _ (step_inv chk h o).1 ((step_inv chk h o).2 w.1 k) w.2
  have k := go ops {} inv_init (by intro id ch h; simp at h) well
  cases hg : (({} : State).run chk ops).ctx.listeners.get id with
  | none => exact absurd hg listens
  | some ch =>
    obtain ⟨w, hw, x, _⟩ := k id ch hg
    exact ⟨w, hw, x⟩

theorem route_gone (chk : Bool) (c : Ctx) (m : Message) : (c.route chk m).1.gone = c.gone := by
  have ow := (PoolCtx.toOwner_spec c m).2.2.1
  have bi := fun (c : Ctx) id => (PoolCtx.byId_spec c id m).2.1
  simp only [Ctx.route]
  split
  · split
    · rfl
    · split
      · split
        · rfl
        · exact bi _ _
      · split
        · rfl
        · exact ow
  · exact ow
  · exact ow
  · exact ow
  · rw [bi]; exact (untag_spec c m.id).2.2
  · exact bi _ _

/-- Every task has its listener, and its channel is open. -/
structure Served (s : State) : Prop where
  has : ∀ w ∈ s.waits, s.ctx.listeners.get w.id = some w.ch
  opened : ∀ w ∈ s.waits, w.ch ∉ s.ctx.gone
  below : ∀ ch ∈ s.ctx.gone, ch < s.ctx.next

theorem Served.more {s : State} (h : Served s) (id : Nat) (hid : s.ctx.listeners.get id = none) (kind : Kind) (c : Ctx)
    (hc : c.listeners = s.ctx.listeners.put id s.ctx.next ∧ c.next = s.ctx.next + 1) (hg : c.gone = s.ctx.gone) :
    Served { ctx := c, waits := ⟨id, s.ctx.next, kind⟩ :: s.waits } where
  has w hw := by
    simp only [hc.1, AMap.get_put]
    rcases List.mem_cons.mp hw with rfl | hw
    · rw [if_pos rfl]
    · have := h.has w hw
      rw [if_neg (by intro e; rw [e, hid] at this; cases this)]
      exact this
  opened w hw := by
    simp only [hg]
    rcases List.mem_cons.mp hw with rfl | hw
    · intro hm; exact absurd (h.below _ hm) (Nat.lt_irrefl _)
    · exact h.opened w hw
  below ch hch := by
    simp only [hg] at hch
    simp only [hc.2]
    have := h.below ch hch
    omega

theorem Served.undo {s : State} (h : Served s) {id : Nat} (hid : s.ctx.listeners.get id = none) :
    Served { s with ctx := ({ s.ctx with listeners := s.ctx.listeners.put id s.ctx.next, next := s.ctx.next + 1 } : Ctx).remove id } := by
  obtain ⟨h1, h2, h3⟩ := untag_spec { s.ctx with listeners := (s.ctx.listeners.put id s.ctx.next).del id, next := s.ctx.next + 1 } id
  refine ⟨fun w hw => ?_, fun w hw => ?_, fun ch hch => ?_⟩
  · have hg := h.has w hw
    have hne : w.id ≠ id := by intro e; rw [e, hid] at hg; cases hg
    simp only [Ctx.remove, h1, AMap.get_del, AMap.get_put, if_neg hne]
    exact hg
  · simp only [Ctx.remove, h3]; exact h.opened w hw
  · simp only [Ctx.remove, h3] at hch
    simp only [Ctx.remove, h2]
    have := h.below ch hch
    omega

theorem Served.over {s : State} (i : Inv s) (h : Served s) {ch : Nat} {w : Wait} (hw : w ∈ s.waits) (hc : w.ch = ch) : Served (s.over ch) where
  has v hv := h.has v (List.mem_filter.mp hv).1
  opened v hv := by
    obtain ⟨a, b⟩ := List.mem_filter.mp hv
    simp only [ne_eq, decide_eq_true_eq] at b
    intro hm
    rcases List.mem_cons.mp hm with e | e
    · exact b e
    · exact h.opened v a e
  below c hm := by
    rcases List.mem_cons.mp hm with e | e
    · rw [e, ← hc]; exact i.lowW w hw
    · exact h.below c e

theorem step_served (chk : Bool) {s : State} (i : Inv s) (h : Served s) (o : Op) : Served (s.step chk o) := by
  cases o with
  | test draws sent =>
    rcases add_cases s.ctx draws with ⟨id, hid, e⟩ | e
    · simp only [State.step, e]
      cases sent with
      | true => exact h.more id hid .test _ ⟨rfl, rfl⟩ rfl
      | false => exact h.undo hid
    · simp only [State.step, e]; exact h
  | build draws tag =>
    rcases add_cases s.ctx draws with ⟨id, hid, e⟩ | e
    · simp only [State.step, e]
      cases tag with
      | some t =>
        refine h.more id hid .dial _ (tag_spec chk _ id t) ?_
        unfold Ctx.tag; split <;> rfl
      | none => exact h.undo hid
    · simp only [State.step, e]; exact h
  | dialled ch ok =>
    simp only [State.step]
    split
    · rename_i hw
      obtain ⟨hm, hc⟩ := find_mem hw
      cases ok with
      | true =>
        refine ⟨fun w hw => ?_, fun w hw => ?_, h.below⟩
        all_goals
          obtain ⟨v, hv, e⟩ := List.mem_map.mp hw
          have : v.id = w.id ∧ v.ch = w.ch := by split at e <;> subst e <;> exact ⟨rfl, rfl⟩
          rw [← this.2]
        · rw [← this.1]; exact h.has v hv
        · exact h.opened v hv
      | false => exact h.over i hm hc
    · exact h
  | timeout ch =>
    simp only [State.step]
    split
    · rename_i id ch' hw
      obtain ⟨hm, hc⟩ := find_mem hw
      obtain ⟨h1, h2, h3⟩ := untag_spec { s.ctx with listeners := s.ctx.listeners.del id } id
      refine ⟨fun w hw => ?_, fun w hw => ?_, fun c hc' => ?_⟩
      · obtain ⟨a, b⟩ := List.mem_filter.mp hw
        simp only [ne_eq, decide_eq_true_eq] at b
        have hg := h.has w a
        have hne : w.id ≠ id := by
          intro e
          have h' := h.has _ hm
          simp only at h' hc
          rw [e, h'] at hg
          exact b (by rw [← hc]; injection hg with hg; exact hg.symm)
        simp only [State.over, Ctx.remove, h1, AMap.get_del, if_neg hne]
        exact hg
      · obtain ⟨a, b⟩ := List.mem_filter.mp hw
        simp only [ne_eq, decide_eq_true_eq] at b
        simp only [State.over, Ctx.remove, h3]
        intro hmem
        rcases List.mem_cons.mp hmem with e | e
        · exact b e
        · exact h.opened w a e
      · simp only [State.over, Ctx.remove, h3] at hc'
        simp only [State.over, Ctx.remove, h2]
        rcases List.mem_cons.mp hc' with e | e
        · rw [e, ← hc]; exact i.lowW _ hm
        · exact h.below c e
    · rename_i id ch' hw
      obtain ⟨hm, hc⟩ := find_mem hw
      exact h.over i hm hc
    · exact h
  | route m =>
    have hc := step_change chk s.ctx (.route m)
    have hgone := route_gone chk s.ctx m
    simp only [Ctx.step] at hc
    simp only [State.step]
    generalize s.ctx.route chk m = x at hc hgone
    obtain ⟨c, r⟩ := x
    have hgone : c.gone = s.ctx.gone := hgone
    cases hc with
    | same h1 hn hr =>
      have hn : c.next = s.ctx.next := hn
      have h1 : c.listeners = s.ctx.listeners := h1
      have : Served { s with ctx := c } := ⟨fun w hw => by simp only [h1]; exact h.has w hw, fun w hw => by show w.ch ∉ c.gone; rw [hgone]; exact h.opened w hw,
        fun ch hch => by have hch : ch ∈ c.gone := hch; rw [hgone] at hch; show ch < c.next; rw [hn]; exact h.below ch hch⟩
      cases r with
      | listener ch => exact absurd rfl (hr ch)
      | _ => exact this
    | added id _ _ _ draws ho _ => cases ho
    | removed id _ _ ho _ => cases ho
    | delivered id ch m' hg h1 hn ho hr hm =>
      have hn : c.next = s.ctx.next := hn
      have h1 : c.listeners = s.ctx.listeners.del id := h1
      have keep : ∀ w ∈ s.waits, w.ch ≠ ch → c.listeners.get w.id = some w.ch := by
        intro w hw hne
        have hg' := h.has w hw
        rw [h1, AMap.get_del, if_neg (by intro e; rw [e, hg] at hg'; injection hg' with hg'; exact hne hg'.symm)]
        exact hg'
      by_cases hin : ch ∈ s.ctx.gone
      · rw [if_pos hin] at hr
        have hr' : r = .lost := hr
        subst hr'
        exact ⟨fun w hw => keep w hw (by intro e; exact h.opened w hw (e ▸ hin)), fun w hw => by show w.ch ∉ c.gone; rw [hgone]; exact h.opened w hw,
          fun ch hch => by have hch : ch ∈ c.gone := hch; rw [hgone] at hch; show ch < c.next; rw [hn]; exact h.below ch hch⟩
      · rw [if_neg hin] at hr
        have hr' : r = .listener ch := hr
        subst hr'
        refine ⟨fun w hw => ?_, fun w hw => ?_, fun ch hch => by have hch : ch ∈ c.gone := hch; rw [hgone] at hch; show ch < c.next; rw [hn]; exact h.below ch hch⟩
        · obtain ⟨a, b⟩ := List.mem_filter.mp hw
          exact keep w a (by simpa using b)
        · show w.ch ∉ c.gone; rw [hgone]; exact h.opened w (List.mem_filter.mp hw).1
  | ownerReads => exact ⟨h.has, h.opened, h.below⟩
  | poolReads => exact ⟨h.has, h.opened, h.below⟩

theorem run_served (chk : Bool) (ops : List Op) : Served (({} : State).run chk ops) := by
  have go : ∀ (ops : List Op) (s : State), Inv s → Served s → Served (s.run chk ops) := by
    intro ops
    induction ops with
    | nil => intro s _ h; exact h
    | cons o ops ih => intro s i h; exact ih _ (step_inv chk i o).1 (step_served chk i h o)
  exact go ops {} inv_init ⟨by simp, by simp, by simp⟩

/-- Whatever happens, the listener of a task that still waits is there: an answer with its message id is passed to this task, and the task is over. -/
theorem C297_answered (chk : Bool) (ops : List Op) (w : Wait) (waits : w ∈ (({} : State).run chk ops).waits) (m : Message) (answer : m.type = .outboundTunnelBuildReply ∨ m.type = .data)
    (same : m.id = w.id) :
    ((({} : State).run chk ops).ctx.route chk m).2 = .listener w.ch ∧ w ∉ ((({} : State).run chk ops).step chk (.route m)).waits ∧
    ∀ v ∈ (({} : State).run chk ops).waits, v.id ≠ w.id → v ∈ ((({} : State).run chk ops).step chk (.route m)).waits := by
  have h := run_served chk ops
  have i := run_inv chk ops inv_init
  generalize ({} : State).run chk ops = s at *
  have hr : (s.ctx.route chk m).2 = .listener w.ch := by
    rcases answer with e | e
    · obtain ⟨u1, _, u3⟩ := untag_spec s.ctx m.id
      have hb := (PoolCtx.byId_spec (s.ctx.untag m.id) m.id m).2.2.2.2
      have hg : (s.ctx.untag m.id).listeners.get m.id = some w.ch := by rw [u1, same]; exact h.has w waits
      rw [hg] at hb
      simp only [Ctx.route, e]
      rw [hb.2, u3, if_neg (h.opened w waits)]
    · have hb := (PoolCtx.byId_spec s.ctx m.id m).2.2.2.2
      have hg : s.ctx.listeners.get m.id = some w.ch := by rw [same]; exact h.has w waits
      rw [hg] at hb
      simp only [Ctx.route, e]
      rw [hb.2, if_neg (h.opened w waits)]
  refine ⟨hr, ?_⟩
  have hs : (s.step chk (.route m)).waits = s.waits.filter (fun v => decide (v.ch ≠ w.ch)) := by
    simp only [State.step]
    generalize s.ctx.route chk m = x at hr
    obtain ⟨c, r⟩ := x
    have hr : r = .listener w.ch := hr
    subst hr
    rfl
  rw [hs]
  constructor
  · intro hm; simpa using (List.mem_filter.mp hm).2
  · intro v hv hne
    refine List.mem_filter.mpr ⟨hv, ?_⟩
    simp only [ne_eq, decide_eq_true_eq]
    intro e
    have h1 := h.has v hv
    have h2 := h.has w waits
    exact hne (i.inj _ _ w.ch (by rw [h1, e]) h2)

/-- Tests with these message ids, each of which is too late. `n` is the number of the first channel. -/
def lateTests (n : Nat) : List Nat → List Op
  | [] => []
  | id :: ids => .test [id] true :: .timeout n :: lateTests (n + 1) ids

/-- Builds with these message ids whose dials fail. -/
def failedDials (n : Nat) (tag : Bytes) : List Nat → List Op
  | [] => []
  | id :: ids => .build [id] (some tag) :: .dialled n false :: failedDials (n + 1) tag ids

theorem fresh_filter {s : State} (h : Inv s) : s.waits.filter (fun w => decide (w.ch ≠ s.ctx.next)) = s.waits := by
  rw [List.filter_eq_self]
  intro w hw
  have := h.lowW w hw
  simp only [ne_eq, decide_eq_true_eq]
  omega

theorem late_one (chk : Bool) {s : State} (h : Inv s) {id : Nat} (hid : s.ctx.listeners.get id = none) :
    ((s.step chk (.test [id] true)).step chk (.timeout s.ctx.next)) =
      { s with ctx := { s.ctx with listeners := s.ctx.listeners.put id s.ctx.next, next := s.ctx.next + 1, gone := s.ctx.next :: s.ctx.gone } } := by
  have e : s.step chk (.test [id] true) = { ctx := { s.ctx with listeners := s.ctx.listeners.put id s.ctx.next, next := s.ctx.next + 1 }, waits := ⟨id, s.ctx.next, .test⟩ :: s.waits } := by
    simp [State.step, Ctx.add, hid]
  rw [e]
  simp only [State.step, List.find?_cons, decide_true, State.over, List.filter_cons, ne_eq, not_true_eq_false, decide_false, Bool.false_eq_true, if_false]
  rw [show (s.waits.filter fun w => decide ¬w.ch = s.ctx.next) = s.waits from fresh_filter h]

theorem dial_one (chk : Bool) {s : State} (h : Inv s) {id : Nat} (hid : s.ctx.listeners.get id = none) (t : Bytes) :
    ((s.step chk (.build [id] (some t))).step chk (.dialled s.ctx.next false)) =
      { s with ctx := { s.ctx with listeners := s.ctx.listeners.put id s.ctx.next, next := s.ctx.next + 1, gone := s.ctx.next :: s.ctx.gone, tags := s.ctx.tags.put t id, ids := s.ctx.ids.put id t } } := by
  have e : s.step chk (.build [id] (some t)) = { ctx := { s.ctx with listeners := s.ctx.listeners.put id s.ctx.next, next := s.ctx.next + 1, tags := s.ctx.tags.put t id, ids := s.ctx.ids.put id t }, waits := ⟨id, s.ctx.next, .dial⟩ :: s.waits } := by
    simp [State.step, Ctx.add, hid, Ctx.tag]
  rw [e]
  simp only [State.step, List.find?_cons, decide_true, State.over, List.filter_cons, ne_eq, not_true_eq_false, decide_false, Bool.false_eq_true, if_false]
  rw [show (s.waits.filter fun w => decide ¬w.ch = s.ctx.next) = s.waits from fresh_filter h]

theorem leak (chk : Bool) (f : Nat → Nat → List Op)
    (one : ∀ {s : State}, Inv s → ∀ {id}, s.ctx.listeners.get id = none → ((s.run chk (f s.ctx.next id)).waits = s.waits ∧
      (s.run chk (f s.ctx.next id)).ctx.next = s.ctx.next + 1 ∧ (s.run chk (f s.ctx.next id)).ctx.listeners = s.ctx.listeners.put id s.ctx.next))
    (all : Nat → List Nat → List Op) (h0 : ∀ n, all n [] = []) (h1 : ∀ n id ids, all n (id :: ids) = f n id ++ all (n + 1) ids) :
    ∀ (ids : List Nat) (s : State), Inv s → ids.Nodup → (∀ id ∈ ids, s.ctx.listeners.get id = none) →
      (s.run chk (all s.ctx.next ids)).waits = s.waits ∧ ∀ id, (id ∈ ids ∨ s.listens id) → (s.run chk (all s.ctx.next ids)).listens id := by
  intro ids
  induction ids with
  | nil =>
    intro s h _ _
    rw [h0]
    refine ⟨rfl, fun id hid => ?_⟩
    rcases hid with hid | hid
    · cases hid
    · exact hid
  | cons i ids ih =>
    intro s h hd hf
    obtain ⟨o1, o2, o3⟩ := one h (hf i List.mem_cons_self)
    have hrun : s.run chk (all s.ctx.next (i :: ids)) = (s.run chk (f s.ctx.next i)).run chk (all (s.run chk (f s.ctx.next i)).ctx.next ids) := by
      rw [h1, o2]
      simp [State.run]
    have hd' := List.nodup_cons.mp hd
    obtain ⟨a, b⟩ := ih (s.run chk (f s.ctx.next i)) (run_inv chk _ h) hd'.2 (by
      intro id hid
      rw [o3, AMap.get_put, if_neg (by rintro rfl; exact hd'.1 hid)]
      exact hf id (List.mem_cons_of_mem _ hid))
    rw [hrun]
    refine ⟨a.trans o1, fun id hid => b id ?_⟩
    by_cases he : id = i
    · right
      unfold State.listens
      rw [o3, AMap.get_put, if_pos he]
      simp
    · rcases hid with hid | hid
      · rcases List.mem_cons.mp hid with e | hid
        · exact absurd e he
        · exact Or.inl hid
      · right
        unfold State.listens at hid ⊢
        rw [o3, AMap.get_put, if_neg he]
        exact hid

/-- The listener of a test that is too late stays, so that there are as many listeners for which nobody waits as there were such tests. -/
theorem C297_tests_violated (chk : Bool) (ops : List Op) (ids : List Nat) (diff : ids.Nodup) (new : ∀ id ∈ ids, ¬(({} : State).run chk ops).listens id) :
    (({} : State).run chk (ops ++ lateTests (({} : State).run chk ops).ctx.next ids)).waits = (({} : State).run chk ops).waits ∧
    ∀ id ∈ ids, (({} : State).run chk (ops ++ lateTests (({} : State).run chk ops).ctx.next ids)).listens id := by
  have happ : ∀ l, ({} : State).run chk (ops ++ l) = (({} : State).run chk ops).run chk l := by intro l; simp [State.run]
  rw [happ]
  have := leak chk (fun n id => [.test [id] true, .timeout n]) (fun {s} h {id} hid => by
    have e : s.run chk [.test [id] true, .timeout s.ctx.next] = _ := late_one chk h hid
    rw [e]; exact ⟨rfl, rfl, rfl⟩) lateTests (fun _ => rfl) (fun _ _ _ => rfl) ids _ (run_inv chk ops inv_init) diff (fun id hid => Classical.byContradiction (new id hid))
  exact ⟨this.1, fun id hid => this.2 id (Or.inl hid)⟩

/-- The same holds for builds whose first router cannot be reached. -/
theorem C297_dials_violated (chk : Bool) (ops : List Op) (tag : Bytes) (ids : List Nat) (diff : ids.Nodup) (new : ∀ id ∈ ids, ¬(({} : State).run chk ops).listens id) :
    (({} : State).run chk (ops ++ failedDials (({} : State).run chk ops).ctx.next tag ids)).waits = (({} : State).run chk ops).waits ∧
    ∀ id ∈ ids, (({} : State).run chk (ops ++ failedDials (({} : State).run chk ops).ctx.next tag ids)).listens id := by
  have happ : ∀ l, ({} : State).run chk (ops ++ l) = (({} : State).run chk ops).run chk l := by intro l; simp [State.run]
  rw [happ]
  have := leak chk (fun n id => [.build [id] (some tag), .dialled n false]) (fun {s} h {id} hid => by
    have e : s.run chk [.build [id] (some tag), .dialled s.ctx.next false] = _ := dial_one chk h hid tag
    rw [e]; exact ⟨rfl, rfl, rfl⟩) (fun n => failedDials n tag) (fun _ => rfl) (fun _ _ _ => rfl) ids _ (run_inv chk ops inv_init) diff (fun id hid => Classical.byContradiction (new id hid))
  exact ⟨this.1, fun id hid => this.2 id (Or.inl hid)⟩

/-! ## Inbound tunnels and the routing table -/

/-- The ids of listeners and tunnels that are taken. -/
def SameIds (t t' : Routing.Table) : Prop := ∀ id, ((t.listeners id).isSome ↔ (t'.listeners id).isSome) ∧ ((t.tunnels id).isSome ↔ (t'.tunnels id).isSome)

theorem drop_spec (t : Routing.Table) (h : Nat) : (t.dropListener h).listeners = t.listeners ∧ (t.dropListener h).tunnels = t.tunnels := by
  unfold Routing.Table.dropListener; split <;> exact ⟨rfl, rfl⟩

theorem inbound_spec (t : Routing.Table) (draws tunnelDraws : List Nat) (size : Nat) (f : Failure) {id tunnel : Nat} (hl : draws.find? (fun id => (t.listeners id).isNone) = some id)
    (ht : tunnelDraws.find? (fun id => (t.tunnels id).isNone) = some tunnel) :
    (∀ j, (inbound t draws tunnelDraws size f).listeners j = if f = .dial ∧ j = id then some t.next else t.listeners j) ∧
    (∀ j, (inbound t draws tunnelDraws size f).tunnels j = t.tunnels j) := by
  have h1 : t.listeners id = none := by simpa using List.find?_some hl
  have h2 : t.tunnels tunnel = none := by simpa using List.find?_some ht
  have e1 : t.insertListener draws = ({ t with listeners := Routing.upd t.listeners id (some t.next), slots := Routing.upd t.slots t.next (some .waiting), next := t.next + 1 }, some (id, t.next)) := by
    unfold Routing.Table.insertListener; rw [hl]
  unfold inbound
  rw [e1]
  dsimp only
  unfold Routing.Table.insertTunnel
  dsimp only
  rw [ht]
  dsimp only
  cases f <;> simp only [drop_spec, Routing.Table.removeTunnel, Routing.Table.removeListener, Routing.Table.install, Routing.upd] <;> constructor <;> intro j
  all_goals by_cases a : j = id <;> by_cases b : j = tunnel <;> simp_all

/-- Builds of inbound tunnels that fail for other reasons than the dial leave no id in the routing table. -/
theorem C297_inbound_partial (t : Routing.Table) (draws tunnelDraws : List Nat) (size : Nat) (f : Failure) (other : f ≠ .dial)
    (free : ∃ id ∈ draws, t.listeners id = none) (freeTunnel : ∃ id ∈ tunnelDraws, t.tunnels id = none) : SameIds t (inbound t draws tunnelDraws size f) := by
  have ex : ∀ {g : Nat → Option Nat} {l : List Nat}, (∃ id ∈ l, g id = none) → ∃ id, l.find? (fun id => (g id).isNone) = some id := by
    rintro g l ⟨id, hm, hn⟩
    rw [← Option.isSome_iff_exists, List.find?_isSome]
    exact ⟨id, hm, by rw [hn]; rfl⟩
  obtain ⟨id, h1⟩ := ex free
  obtain ⟨tunnel, h2⟩ := ex freeTunnel
  obtain ⟨a, b⟩ := inbound_spec t draws tunnelDraws size f h1 h2
  intro j
  rw [a, b, if_neg (fun h => other h.1)]
  exact ⟨Iff.rfl, Iff.rfl⟩

/-- If the first routers cannot be dialled, every build leaves its listener in the routing table. -/
theorem C297_inbound_violated (t : Routing.Table) (size : Nat) (ids : List Nat) (diff : ids.Nodup) (new : ∀ id ∈ ids, t.listeners id = none) (tunnel : Nat) (free : t.tunnels tunnel = none) :
    ∀ id, ((ids.foldl (fun t id => inbound t [id] [tunnel] size .dial) t).listeners id).isSome ↔ ((t.listeners id).isSome ∨ id ∈ ids) := by
  induction ids generalizing t with
  | nil => intro id; simp
  | cons i ids ih =>
    intro id
    have hd := List.nodup_cons.mp diff
    obtain ⟨a, b⟩ := inbound_spec t [i] [tunnel] size .dial (id := i) (tunnel := tunnel) (by simp [new i List.mem_cons_self]) (by simp [free])
    rw [List.foldl_cons, ih (inbound t [i] [tunnel] size .dial) hd.2 (by
      intro j hj
      rw [a, if_neg (by rintro ⟨_, rfl⟩; exact hd.1 hj)]
      exact new j (List.mem_cons_of_mem _ hj)) (by rw [b]; exact free), a]
    by_cases e : id = i <;> simp [e]

/-- An empty routing table. -/
def noRoutes : Routing.Table := { localId := [1], transit := { cap := 1 }, manager := { cap := 1 } }

example := C297_inbound_partial noRoutes [5] [6] 2 .late (by decide) ⟨5, by simp, rfl⟩ ⟨6, by simp, rfl⟩

example : (([1, 2, 3].foldl (fun t id => inbound t [id] [7] 2 .dial) noRoutes).listeners 2).isSome :=
  (C297_inbound_violated noRoutes 2 [1, 2, 3] (by decide) (fun _ _ => rfl) 7 rfl 2).mpr (.inr (by decide))

/-! ## The hypotheses can be met -/

/-- A build that is answered, one that is not, a test that ends well and a test that runs. -/
def fine : List Op := [.build [5, 6] (some [1]), .dialled 0 true, .build [5, 6] (some [2]), .route ⟨.outboundTunnelBuildReply, 5, 0, []⟩, .dialled 1 true, .test [7] true, .timeout 1,
  .route ⟨.data, 7, 0, []⟩, .test [5] true, .test [8] false, .build [8] none]

example : Well true {} fine := by
  refine ⟨by simp [Fails], by simp [Fails], by simp [Fails], by simp [Fails], by simp [Fails], by simp [Fails], ?_, by simp [Fails], by simp [Fails], by simp [Fails], by simp [Fails], trivial⟩
  show ¬∃ w ∈ _, _
  decide +kernel

example : (({} : State).run true fine).waits = [⟨5, 3, .test⟩] ∧ (({} : State).run true fine).ctx.listeners = [(5, 3)] := by decide +kernel

example := C297_tests_violated true fine [1, 2, 3] (by decide) (by
  intro id hid; show ¬(_ ≠ _); rw [Classical.not_not]
  simp only [List.mem_cons, List.not_mem_nil, or_false] at hid
  rcases hid with rfl | rfl | rfl <;> decide +kernel)

example := C297_answered true (fine ++ lateTests 4 [1, 2]) ⟨5, 3, .test⟩ (by decide +kernel) ⟨.data, 5, 0, []⟩ (.inr rfl) rfl

example : (({} : State).run true (lateTests 0 [1, 2, 3] ++ failedDials 3 [9] [4, 5])).ctx.listeners.length = 5 ∧ (({} : State).run true (lateTests 0 [1, 2, 3] ++ failedDials 3 [9] [4, 5])).waits = [] := by decide +kernel

example := C297_dials_violated true fine [9] [1] (by decide) (by
  intro id hid; show ¬(_ ≠ _); rw [Classical.not_not]; rw [List.mem_singleton.mp hid]; decide +kernel)

end Emissary.PoolWaits
