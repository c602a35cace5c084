import Verif.Model.Pool
import Mathlib.Data.List.Induction
/-!
# C131: what the owner of a tunnel pool is told
-/
namespace Emissary.Pool
open Emissary Emissary.Routing

/-! ## Specification -/

/-- The last event of the kinds `P` and `Q` is of the kind `P`. -/
def Since (P Q : Event → Prop) (evs : List Event) : Prop := ∃ a x b, evs = a ++ x :: b ∧ P x ∧ ∀ y ∈ b, ¬ Q y

/-- According to the events, there is this outbound tunnel. -/
def UpOut (evs : List Event) (id : Nat) : Prop := Since (· = .outboundBuilt id) (· = .outboundExpired id) evs
/-- According to the events, there is this inbound tunnel. -/
def UpIn (evs : List Event) (gw : Nat) : Prop := Since (fun e => ∃ t, e = .inboundBuilt gw t) (· = .inboundExpired gw) evs
/-- According to the events, this outbound tunnel is about to expire. -/
def DueOut (evs : List Event) (id : Nat) : Prop := Since (· = .outboundExpiring id) (· = .outboundExpired id) evs
/-- According to the events, this inbound tunnel is about to expire. -/
def DueIn (evs : List Event) (gw : Nat) : Prop := Since (· = .inboundExpiring gw) (· = .inboundExpired gw) evs

/-- The events that the owner's queue took. -/
def accepted (s : State) : List Event := (s.log.filter (·.2)).map (·.1)

/-- A pool when it is created, `tunnel/pool/mod.rs` 240-296. -/
def State.init (numIn numOut now : Nat) : State := { numIn, numOut, clock := now, maintenance := now, lastTest := now }

/-! ## Lemmas -/

theorem since_snoc (P Q : Event → Prop) (evs : List Event) (e : Event) : Since P Q (evs ++ [e]) ↔ P e ∨ (Since P Q evs ∧ ¬ Q e) := by
  constructor
  · rintro ⟨a, x, b, h, hp, hq⟩
    rcases List.eq_nil_or_concat b with rfl | ⟨b', y, rfl⟩
    · obtain ⟨_, h2⟩ := List.append_inj' h rfl
      injection h2 with h2
      exact .inl (h2 ▸ hp)
    · rw [List.concat_eq_append, ← List.cons_append, ← List.append_assoc] at h
      obtain ⟨h1, h2⟩ := List.append_inj' h rfl
      injection h2 with h2
      refine .inr ⟨⟨a, x, b', h1, hp, fun y hy => hq y (by simp [hy])⟩, ?_⟩
      subst h2
      exact hq e (by simp)
  · rintro (hp | ⟨⟨a, x, b, rfl, hp, hq⟩, hn⟩)
    · exact ⟨evs, e, [], rfl, hp, by simp⟩
    · refine ⟨a, x, b ++ [e], by simp, hp, ?_⟩
      intro y hy
      rcases List.mem_append.1 hy with hy | hy
      · exact hq y hy
      · rw [List.mem_singleton.1 hy]; exact hn

theorem since_nil (P Q : Event → Prop) : ¬ Since P Q [] := by
  rintro ⟨a, x, b, h, _⟩
  simp at h

theorem mem_ins (x y : Nat) (l : List Nat) : x ∈ ins y l ↔ x = y ∨ x ∈ l := by
  unfold ins
  split
  · constructor
    · exact .inr
    · rintro (rfl | h)
      · assumption
      · exact h
  · exact List.mem_cons

theorem mem_del (x y : Nat) (l : List Nat) : x ∈ del y l ↔ x ∈ l ∧ x ≠ y := by simp [del]

/-- All events. -/
def told (s : State) : List Event := s.log.map (·.1)

structure LogInv (s : State) : Prop where
  out : ∀ id, id ∈ s.outbound ↔ UpOut (told s) id
  inn : ∀ gw, (s.gateways.get gw).isSome ↔ UpIn (told s) gw
  eo : ∀ id, id ∈ s.expiringOut ↔ DueOut (told s) id
  ei : ∀ gw, gw ∈ s.expiringIn ↔ DueIn (told s) gw
  acc : accepted s = s.got ++ s.queue.queue

theorem emit_told (s : State) (e : Event) : told (s.emit e) = told s ++ [e] := by simp [told, State.emit]

theorem emit_acc (s : State) (e : Event) (h : accepted s = s.got ++ s.queue.queue) : accepted (s.emit e) = (s.emit e).got ++ (s.emit e).queue.queue := by
  simp only [accepted] at h
  simp only [accepted, State.emit, Chan.trySend]
  split
  · simp [h]
  · split
    · simp [h]
    · simp [h]

theorem LogInv.outResult {s : State} (h : LogInv s) (now : Nat) (r : Nat × Bool) : LogInv (s.outResult now r) := by
  unfold State.outResult
  split
  · exact h
  · dsimp only
    split
    · refine ⟨fun id => ?_, fun gw => ?_, fun id => ?_, fun gw => ?_, emit_acc _ _ h.acc⟩
      · rw [UpOut, emit_told, since_snoc]
        show id ∈ ins r.1 s.outbound ↔ _
        rw [mem_ins, h.out]
        simp [UpOut, told, eq_comm]
      · rw [UpIn, emit_told, since_snoc]
        exact (h.inn gw).trans (by simp [UpIn, told])
      · rw [DueOut, emit_told, since_snoc]
        exact (h.eo id).trans (by simp [DueOut, told])
      · rw [DueIn, emit_told, since_snoc]
        exact (h.ei gw).trans (by simp [DueIn, told])
    · exact ⟨h.out, h.inn, h.eo, h.ei, h.acc⟩

theorem LogInv.inResult {s : State} (h : LogInv s) (now : Nat) (r : Nat × Option (Nat × Nat)) : LogInv (s.inResult now r) := by
  unfold State.inResult
  split
  · exact h
  · dsimp only
    split
    · exact ⟨h.out, h.inn, h.eo, h.ei, h.acc⟩
    · rename_i gw' built _
      refine ⟨fun id => ?_, fun gw => ?_, fun id => ?_, fun gw => ?_, emit_acc _ _ h.acc⟩
      · refine Iff.trans ?_ (iff_of_eq (congrArg (UpOut · id) (emit_told _ _).symm))
        rw [UpOut, since_snoc]
        exact (h.out id).trans (by simp [UpOut, told])
      · refine Iff.trans ?_ (iff_of_eq (congrArg (UpIn · gw) (emit_told _ _).symm))
        rw [UpIn, since_snoc]
        show ((s.gateways.put gw' r.1).get gw).isSome ↔ _
        rw [AMap.get_put]
        by_cases e : gw = gw'
        · simp [e]
        · rw [if_neg e, h.inn]
          simp [UpIn, told, Ne.symm e]
      · refine Iff.trans ?_ (iff_of_eq (congrArg (DueOut · id) (emit_told _ _).symm))
        rw [DueOut, since_snoc]
        exact (h.eo id).trans (by simp [DueOut, told])
      · refine Iff.trans ?_ (iff_of_eq (congrArg (DueIn · gw) (emit_told _ _).symm))
        rw [DueIn, since_snoc]
        exact (h.ei gw).trans (by simp [DueIn, told])

theorem LogInv.expire {s : State} (h : LogInv s) (now : Nat) (t : Inbound) : LogInv (s.expire now t) := by
  unfold State.expire
  split
  · exact h
  · refine ⟨fun id => ?_, fun gw => ?_, fun id => ?_, fun gw => ?_, emit_acc _ _ h.acc⟩
    · rw [UpOut, emit_told, since_snoc]
      exact (h.out id).trans (by simp [UpOut, told])
    · rw [UpIn, emit_told, since_snoc]
      show ((s.gateways.del t.gateway).get gw).isSome ↔ _
      rw [AMap.get_del]
      by_cases e : gw = t.gateway
      · simp [e]
      · rw [if_neg e, h.inn]
        simp [UpIn, told, Ne.symm e]
    · rw [DueOut, emit_told, since_snoc]
      exact (h.eo id).trans (by simp [DueOut, told])
    · rw [DueIn, emit_told, since_snoc]
      show gw ∈ del t.gateway s.expiringIn ↔ _
      rw [mem_del, h.ei]
      simp [DueIn, told, eq_comm]

theorem LogInv.fire {s : State} (h : LogInv s) (now : Nat) (x : Nat × Timer) : LogInv (s.fire now x) := by
  unfold State.fire
  split
  · exact h
  · dsimp only
    split
    · rename_i i _
      refine ⟨fun id => ?_, fun gw => ?_, fun id => ?_, fun gw => ?_, emit_acc _ _ h.acc⟩
      · rw [UpOut, emit_told, since_snoc]
        show id ∈ del i s.outbound ↔ _
        rw [mem_del, h.out]
        simp [UpOut, told, eq_comm]
      · rw [UpIn, emit_told, since_snoc]
        exact (h.inn gw).trans (by simp [UpIn, told])
      · rw [DueOut, emit_told, since_snoc]
        show id ∈ del i s.expiringOut ↔ _
        rw [mem_del, h.eo]
        simp [DueOut, told, eq_comm]
      · rw [DueIn, emit_told, since_snoc]
        exact (h.ei gw).trans (by simp [DueIn, told])
    · rename_i i _
      refine ⟨fun id => ?_, fun gw => ?_, fun id => ?_, fun gw => ?_, emit_acc _ _ h.acc⟩
      · rw [UpOut, emit_told, since_snoc]
        exact (h.out id).trans (by simp [UpOut, told])
      · rw [UpIn, emit_told, since_snoc]
        exact (h.inn gw).trans (by simp [UpIn, told])
      · rw [DueOut, emit_told, since_snoc]
        show id ∈ ins i s.expiringOut ↔ _
        rw [mem_ins, h.eo]
        simp [DueOut, told, eq_comm]
      · rw [DueIn, emit_told, since_snoc]
        exact (h.ei gw).trans (by simp [DueIn, told])
    · rename_i i _
      refine ⟨fun id => ?_, fun gw => ?_, fun id => ?_, fun gw => ?_, emit_acc _ _ h.acc⟩
      · rw [UpOut, emit_told, since_snoc]
        exact (h.out id).trans (by simp [UpOut, told])
      · rw [UpIn, emit_told, since_snoc]
        exact (h.inn gw).trans (by simp [UpIn, told])
      · rw [DueOut, emit_told, since_snoc]
        exact (h.eo id).trans (by simp [DueOut, told])
      · rw [DueIn, emit_told, since_snoc]
        show gw ∈ ins i s.expiringIn ↔ _
        rw [mem_ins, h.ei]
        simp [DueIn, told, eq_comm]

theorem LogInv.maintain {s : State} (h : LogInv s) (i : Input) : LogInv (s.maintain i) := by
  unfold State.maintain
  dsimp only
  split <;> exact ⟨h.out, h.inn, h.eo, h.ei, h.acc⟩

theorem LogInv.finish {s : State} (h : LogInv s) (i : Input) : LogInv (s.finish i).1 := by
  unfold State.finish
  split
  · have e := emit_acc { s with table := s.table.filter fun id => decide (id ∉ List.map Prod.snd s.gateways) } .shutDown h.acc
    refine ⟨fun id => ?_, fun gw => ?_, fun id => ?_, fun gw => ?_, e⟩
    · refine Iff.trans ?_ (iff_of_eq (congrArg (UpOut · id) (emit_told _ _).symm))
      rw [UpOut, since_snoc]
      exact (h.out id).trans (by simp [UpOut, told])
    · refine Iff.trans ?_ (iff_of_eq (congrArg (UpIn · gw) (emit_told _ _).symm))
      rw [UpIn, since_snoc]
      exact (h.inn gw).trans (by simp [UpIn, told])
    · refine Iff.trans ?_ (iff_of_eq (congrArg (DueOut · id) (emit_told _ _).symm))
      rw [DueOut, since_snoc]
      exact (h.eo id).trans (by simp [DueOut, told])
    · refine Iff.trans ?_ (iff_of_eq (congrArg (DueIn · gw) (emit_told _ _).symm))
      rw [DueIn, since_snoc]
      exact (h.ei gw).trans (by simp [DueIn, told])
  · split
    · exact LogInv.maintain (s := { s with maintenance := i.now + maintenanceInterval }) ⟨h.out, h.inn, h.eo, h.ei, h.acc⟩ i
    · split
      · exact h.maintain i
      · exact h

theorem foldl_inv {α β : Type} {P : β → Prop} {f : β → α → β} (hf : ∀ b a, P b → P (f b a)) (l : List α) : ∀ b, P b → P (l.foldl f b) := by
  induction l with
  | nil => intro b h; exact h
  | cons a l ih => intro b h; exact ih _ (hf b a h)

theorem LogInv.step (chk : Bool) {s : State} (h : LogInv s) (o : Op) : LogInv (s.step chk o) := by
  cases o with
  | read =>
    refine ⟨h.out, h.inn, h.eo, h.ei, ?_⟩
    show accepted s = s.got ++ s.queue.recv.2.toList ++ s.queue.recv.1.queue
    rw [h.acc]
    unfold Chan.recv
    split
    · rename_i e; simp [e]
    · rename_i e; simp [e]
  | poll i =>
    show LogInv (s.poll chk i).1
    unfold State.poll
    split
    · exact h
    · have hr : LogInv (s.results i) := by
        unfold State.results
        refine foldl_inv (fun b a hb => hb.expire _ a) _ _ ?_
        refine foldl_inv (fun b a hb => hb.inResult _ a) _ _ ?_
        refine foldl_inv (fun b a hb => hb.outResult _ a) _ _ ?_
        exact ⟨h.out, h.inn, h.eo, h.ei, h.acc⟩
      dsimp only
      generalize s.results i = s1 at hr ⊢
      split
      · exact ⟨hr.out, hr.inn, hr.eo, hr.ei, hr.acc⟩
      · split
        · exact ⟨hr.out, hr.inn, hr.eo, hr.ei, hr.acc⟩
        · refine LogInv.finish ?_ i
          exact foldl_inv (fun b a hb => hb.fire _ a) _ _ ⟨hr.out, hr.inn, hr.eo, hr.ei, hr.acc⟩

theorem logInv_run (chk : Bool) (numIn numOut now : Nat) (ops : List Op) : LogInv ((State.init numIn numOut now).run chk ops) :=
  foldl_inv (fun _ o h => h.step chk o) ops _
    ⟨fun id => by simp [State.init, UpOut, told, since_nil], fun id => by simp [State.init, UpIn, told, since_nil], fun id => by simp [State.init, DueOut, told, since_nil],
      fun id => by simp [State.init, DueIn, told, since_nil], rfl⟩

/-! ## C131 -/

/-- C131: the owner reads the events its queue took, in order and without loss. -/
theorem C131_order (chk : Bool) (numIn numOut now : Nat) (ops : List Op) :
    accepted ((State.init numIn numOut now).run chk ops) =
      ((State.init numIn numOut now).run chk ops).got ++ ((State.init numIn numOut now).run chk ops).queue.queue :=
  (logInv_run chk numIn numOut now ops).acc

theorem accepted_all (s : State) (h : ∀ x ∈ s.log, x.2 = true) : accepted s = told s := by
  simp only [accepted, told]
  rw [List.filter_eq_self.2 h]

/-- C131: if its queue never was full, the owner that has read all events knows exactly which tunnels the pool has and which of them are about to expire.
What is missing: nothing is known once an event was lost, see `C131_lost_violated`. -/
theorem C131_view_partial (chk : Bool) (numIn numOut now : Nat) (ops : List Op)
    (s : State) (hs : s = (State.init numIn numOut now).run chk ops) (hl : ∀ x ∈ s.log, x.2 = true) (hq : s.queue.queue = []) :
    (∀ id, id ∈ s.outbound ↔ UpOut s.got id) ∧ (∀ gw, (s.gateways.get gw).isSome ↔ UpIn s.got gw) ∧
    (∀ id, id ∈ s.expiringOut ↔ DueOut s.got id) ∧ (∀ gw, gw ∈ s.expiringIn ↔ DueIn s.got gw) := by
  subst hs
  have h := logInv_run chk numIn numOut now ops
  have e : told ((State.init numIn numOut now).run chk ops) = ((State.init numIn numOut now).run chk ops).got := by
    rw [← accepted_all _ hl, h.acc, hq, List.append_nil]
  exact ⟨e ▸ h.out, e ▸ h.inn, e ▸ h.eo, e ▸ h.ei⟩

end Emissary.Pool
