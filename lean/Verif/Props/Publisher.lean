import Verif.Model.Publisher
import Verif.Props.Netdb
/-!
# C156 to C162: how a destination publishes its lease set
-/
namespace Emissary.Publish
open Emissary.I2np (Duration)
open Emissary.Dest (Lease)

/-! ## Specification -/

/-- A message to a floodfill. -/
def Sends : Out → Prop
  | .store .. => True
  | .lookup .. => True
  | _ => False

/-- Inbound tunnels that are built. -/
def isBuilt : Op → Bool
  | .built _ => true
  | _ => false

/-- How far apart two messages must be, the first of which was sent before the second. -/
def Apart : Out → Out → Prop
  | .store a _ _ _ _, .store b _ _ _ _ => a + 25 * 1000000000 ≤ b
  | .store a _ _ _ _, .lookup b _ _ _ => a + 10 * 1000000000 ≤ b
  | .lookup a _ _ _, .lookup b _ _ _ => a + 2 * 1000000000 ≤ b
  | .lookup a _ _ _, .store b _ _ _ _ => a ≤ b
  | _, _ => True

/-! ## Helpers -/

theorem turns_inv {P : State → Prop} {chk : Bool} (h : ∀ s t, P s → P (s.turn chk t).1) : ∀ (n : Nat) (s : State) (t : Nat → Turn), P s → P (s.turns chk n t).1 := by
  intro n
  induction n with
  | zero => intro s t hp; exact hp
  | succ n ih =>
    intro s t hp
    have hq := h s (t 0) hp
    unfold State.turns
    cases hx : s.turn chk (t 0) with
    | mk q b =>
      rw [hx] at hq
      cases b with
      | true => exact ih q _ hq
      | false => exact hq

theorem run_inv {P : State → Prop} {chk : Bool} {ops : List Op} (h : ∀ s o, o ∈ ops → P s → P (s.step chk o)) : ∀ (l : List Op) (s : State), (∀ o ∈ l, o ∈ ops) → P s → P (s.run chk l) := by
  intro l
  induction l with
  | nil => intro s _ hp; exact hp
  | cons o l ih => intro s hl hp; exact ih _ (fun x hx => hl x (List.mem_cons_of_mem _ hx)) (h s o (hl o List.mem_cons_self) hp)

/-- What a turn leaves alone. -/
structure Frame (s s' : State) : Prop where
  now : s'.now = s.now
  unpublished : s'.unpublished = s.unpublished
  key : s'.key = s.key
  num : s'.num = s.num
  leaseSet : s'.leaseSet = s.leaseSet
  tunnels : s'.tunnels = s.tunnels
  expiring : s'.expiring = s.expiring
  pending : s'.pending = s.pending

theorem Frame.rfl {s : State} : Frame s s := ⟨Eq.refl _, Eq.refl _, Eq.refl _, Eq.refl _, Eq.refl _, Eq.refl _, Eq.refl _, Eq.refl _⟩

theorem Frame.trans {a b c : State} (h : Frame a b) (k : Frame b c) : Frame a c :=
  ⟨k.now.trans h.now, k.unpublished.trans h.unpublished, k.key.trans h.key, k.num.trans h.num, k.leaseSet.trans h.leaseSet, k.tunnels.trans h.tunnels, k.expiring.trans h.expiring, k.pending.trans h.pending⟩

theorem frame_store (s : State) (t : Turn) : Frame s (s.sendStore t) := by
  unfold State.sendStore
  split
  · exact ⟨rfl, rfl, rfl, rfl, rfl, rfl, rfl, rfl⟩
  · split <;> exact ⟨rfl, rfl, rfl, rfl, rfl, rfl, rfl, rfl⟩

theorem frame_lookup (s : State) (t : Turn) (d : Duration) : Frame s (s.sendLookup t d) := by
  unfold State.sendLookup
  split
  · exact ⟨rfl, rfl, rfl, rfl, rfl, rfl, rfl, rfl⟩
  · split <;> exact ⟨rfl, rfl, rfl, rfl, rfl, rfl, rfl, rfl⟩

theorem frame_turn (chk : Bool) (s : State) (t : Turn) : Frame s (s.turn chk t).1 := by
  unfold State.turn
  split
  · split
    · exact ⟨rfl, rfl, rfl, rfl, rfl, rfl, rfl, rfl⟩
    · exact .rfl
  · rename_i k _ _
    split
    · cases k <;> exact ⟨rfl, rfl, rfl, rfl, rfl, rfl, rfl, rfl⟩
    · exact .rfl
  · split
    · exact .rfl
    · exact ⟨rfl, rfl, rfl, rfl, rfl, rfl, rfl, rfl⟩
    · exact ⟨rfl, rfl, rfl, rfl, rfl, rfl, rfl, rfl⟩
  · exact frame_store s t
  · split
    · exact ⟨rfl, rfl, rfl, rfl, rfl, rfl, rfl, rfl⟩
    · exact .rfl
  · split
    · exact ⟨rfl, rfl, rfl, rfl, rfl, rfl, rfl, rfl⟩
    · split
      · exact frame_lookup s t _
      · split
        · exact ⟨rfl, rfl, rfl, rfl, rfl, rfl, rfl, rfl⟩
        · exact .rfl
  · exact ⟨rfl, rfl, rfl, rfl, rfl, rfl, rfl, rfl⟩
  · exact .rfl
  · exact .rfl

theorem frame_poll (chk : Bool) (s : State) (t : Nat → Turn) : Frame s (s.poll chk t) :=
  turns_inv (P := fun s' => Frame s s') (fun a b h => h.trans (frame_turn chk a b)) _ s t .rfl

/-! ## C156: unpublished destinations -/

/-- An unpublished destination never sends its lease set to anybody, never asks for it and makes no queries: all that is seen are the leases that the user is given. -/
theorem C156_unpublished (chk : Bool) (t : Duration) (tunnels : List Lease) (key : Bytes) (num : Nat) (ls : Bytes) (cmd : Bool) (ops : List Op) (o : Out)
    (h : o ∈ ((State.new t tunnels key num true ls cmd).run chk ops).log) : ∃ l, o = .leases l := by
  have key : ∀ s : State, (s.unpublished = true ∧ s.phase = .inactive ∧ ∀ o ∈ s.log, ∃ l, o = Out.leases l) → ∀ o, (let s' := s.step chk o; s'.unpublished = true ∧ s'.phase = .inactive ∧ ∀ o ∈ s'.log, ∃ l, o = Out.leases l) := by
    rintro s ⟨hu, hp, hl⟩ o
    dsimp only
    unfold State.step
    split
    · exact ⟨hu, hp, hl⟩
    cases o with
    | tick t => exact ⟨hu, hp, hl⟩
    | leaseSet raw cmd =>
      dsimp only [State.registerLeaseSet]
      rw [if_pos hu]
      exact ⟨hu, hp, hl⟩
    | store k raw =>
      dsimp only [State.databaseStore]
      split
      · exact ⟨hu, hp, hl⟩
      · rw [hp]; exact ⟨hu, hp, hl⟩
    | reply k r kn a =>
      dsimp only [State.searchReply]
      rw [if_pos hu]
      exact ⟨hu, hp, hl⟩
    | built l =>
      dsimp only [State.inbound]
      rw [if_pos hu]
      refine ⟨hu, hp, ?_⟩
      intro o ho
      rcases List.mem_append.mp ho with ho | ho
      · exact hl o ho
      · exact ⟨_, List.mem_singleton.mp ho⟩
    | expiring id =>
      dsimp only [State.expire]
      split <;> exact ⟨hu, hp, hl⟩
    | expired id => exact ⟨hu, hp, hl⟩
    | poll t =>
      have e : s.poll chk t = s := by
        show (State.turns chk 4 s t).1 = s
        unfold State.turns State.turn
        rw [hp]
      dsimp only
      rw [e]
      exact ⟨hu, hp, hl⟩
    | result r ok k =>
      dsimp only [State.result]
      split
      · split
        · split <;> exact ⟨hu, hp, hl⟩
        · exact ⟨hu, hp, hl⟩
      · exact ⟨hu, hp, hl⟩
  exact (run_inv (P := fun s => s.unpublished = true ∧ s.phase = .inactive ∧ ∀ o ∈ s.log, ∃ l, o = Out.leases l) (ops := ops) (fun s o _ h => key s h o) ops _ (fun _ h => h)
    ⟨rfl, rfl, fun o h => by cases h⟩).2.2 o h

/-! ## C157: what is sent, and to whom -/

theorem message_some {s : State} {t : Turn} {f : Option Bytes} {r : Bytes} {k : Nat} {l : Lease} (h : s.message t f = some (r, k, l)) :
    f = some r ∧ s.floodfills.get r = some k ∧ ∃ id, (id, l) ∈ s.tunnels := by
  unfold State.message at h
  split at h
  · cases h
  · split at h
    · cases h
    · split at h
      · rename_i f' _ k' l' h1 h2
        injection h with h
        injection h with e1 h
        injection h with e2 e3
        subst e1; subst e2; subst e3
        exact ⟨rfl, h1, l'.1, List.mem_of_getElem? h2⟩
      · cases h

theorem closest_some {target : Bytes} {l : List Bytes} {f : Bytes} (hl : ∀ r ∈ l, r.length = 32) (h : Netdb.getClosest target l = some f) :
    f ∈ l ∧ ∀ g ∈ l, Netdb.distance target f ≤ Netdb.distance target g := by
  have := Netdb.C42_get_closest target hl
  rw [h] at this
  exact this

theorem closest_none {target : Bytes} {l : List Bytes} (hl : ∀ r ∈ l, r.length = 32) (h : Netdb.getClosest target l = none) : l = [] := by
  have := Netdb.C42_get_closest target hl
  rw [h] at this
  exact this

/-- What one turn of the publisher adds to what is seen. -/
theorem turn_log (chk : Bool) (s : State) (t : Turn) : (s.turn chk t).1.log = s.log
    ∨ (∃ f k l, s.phase = .publish ∧ s.message t (s.storeTarget t) = some (f, k, l) ∧ (s.turn chk t).1.log = s.log ++ [.store s.now f k s.leaseSet l])
    ∨ ∃ f k l d, s.phase = .verify d none ∧ s.message t (s.lookupTarget t) = some (f, k, l) ∧ (s.turn chk t).1.log = s.log ++ [.lookup s.now f k l] := by
  unfold State.turn
  split
  · split <;> exact .inl rfl
  · rename_i k _ _
    split
    · cases k <;> exact .inl rfl
    · exact .inl rfl
  · split <;> exact .inl rfl
  · rename_i hp
    unfold State.sendStore
    split
    · exact .inl rfl
    · rename_i f k l hm
      split
      · exact .inr (.inl ⟨f, k, l, hp, hm, rfl⟩)
      · exact .inl rfl
  · split <;> exact .inl rfl
  · rename_i d tm hp
    split
    · exact .inl rfl
    · split
      · unfold State.sendLookup
        split
        · exact .inl rfl
        · rename_i f k l hm
          split
          · exact .inr (.inr ⟨f, k, l, d, hp, hm, rfl⟩)
          · exact .inl rfl
      · split <;> exact .inl rfl
  · exact .inl rfl
  · exact .inl rfl
  · exact .inl rfl

/-- Every message that the publisher sends in a turn goes to a floodfill that it knows, sealed with that floodfill's key, and the answer comes back over one of the
destination's tunnels. A store has the current lease set and goes to the closest floodfill among those to which it was not sent before, or among all if there is no such
floodfill. A lookup goes to the closest floodfill among those that were neither asked before nor sent the lease set. -/
theorem C157_closest (chk : Bool) (s : State) (t : Turn) (h32 : ∀ r ∈ s.ids, r.length = 32) (o : Out) (h : (s.turn chk t).1.log = s.log ++ [o]) : match o with
    | .store a f k ls l => a = s.now ∧ ls = s.leaseSet ∧ s.floodfills.get f = some k ∧ (∃ id, (id, l) ∈ s.tunnels)
        ∧ ((∃ g ∈ s.ids, g ∉ s.stored) → f ∉ s.stored) ∧ ∀ g ∈ s.ids, (f ∉ s.stored → g ∉ s.stored) → Netdb.distance t.target f ≤ Netdb.distance t.target g
    | .lookup a f k l => a = s.now ∧ s.floodfills.get f = some k ∧ (∃ id, (id, l) ∈ s.tunnels)
        ∧ f ∉ s.queried ∧ ∀ g ∈ s.ids, g ∉ s.queried → Netdb.distance t.target f ≤ Netdb.distance t.target g
    | _ => False := by
  rcases turn_log chk s t with e | ⟨f, k, l, _, hm, e⟩ | ⟨f, k, l, d, _, hm, e⟩
  · rw [e] at h
    have := congrArg List.length h
    simp at this
  · rw [e] at h
    have := List.append_cancel_left h
    injection this with this _
    subst this
    obtain ⟨h1, h2, h3⟩ := message_some hm
    refine ⟨rfl, rfl, h2, h3, ?_⟩
    unfold State.storeTarget at h1
    have h32' : ∀ r ∈ s.ids.filter (fun r => !decide (r ∈ s.stored)), r.length = 32 := fun r hr => h32 r (List.mem_filter.mp hr).1
    split at h1
    · rename_i f' hf
      injection h1 with h1
      subst h1
      obtain ⟨hmem, hc⟩ := closest_some h32' hf
      have hns : f' ∉ s.stored := by simpa using (List.mem_filter.mp hmem).2
      exact ⟨fun _ => hns, fun g hg hi => hc g (List.mem_filter.mpr ⟨hg, by simpa using hi hns⟩)⟩
    · rename_i hf
      have hnil := closest_none h32' hf
      refine ⟨?_, fun g hg _ => (closest_some h32 h1).2 g hg⟩
      rintro ⟨g, hg, hn⟩
      have : g ∈ s.ids.filter (fun r => !decide (r ∈ s.stored)) := List.mem_filter.mpr ⟨hg, by simpa using hn⟩
      rw [hnil] at this
      cases this
  · rw [e] at h
    have := List.append_cancel_left h
    injection this with this _
    subst this
    obtain ⟨h1, h2, h3⟩ := message_some hm
    have h32' : ∀ r ∈ s.ids.filter (fun r => !decide (r ∈ s.queried)), r.length = 32 := fun r hr => h32 r (List.mem_filter.mp hr).1
    obtain ⟨hmem, hc⟩ := closest_some h32' h1
    exact ⟨rfl, h2, h3, by simpa using (List.mem_filter.mp hmem).2, fun g hg hi => hc g (List.mem_filter.mpr ⟨hg, by simpa using hi⟩)⟩

/-- The lease set that is published is the last one that the user registered, and the tunnels over which answers come back are those that were built and do not expire soon. -/
theorem C157_current (chk : Bool) (s : State) (hd : s.done = false) (o : Op) :
    (s.step chk o).leaseSet = (match o with | .leaseSet raw _ => raw | _ => s.leaseSet)
      ∧ (s.step chk o).tunnels = match o with
        | .built l => s.tunnels.put l.tunnel l
        | .expiring id => if (s.tunnels.get id).isSome then s.tunnels.del id else s.tunnels
        | _ => s.tunnels := by
  unfold State.step
  rw [hd]
  simp only [Bool.false_eq_true, if_false]
  cases o with
  | tick t => exact ⟨rfl, rfl⟩
  | leaseSet raw cmd =>
    dsimp only [State.registerLeaseSet]
    split
    · exact ⟨rfl, rfl⟩
    · split <;> exact ⟨rfl, rfl⟩
  | store k raw =>
    dsimp only [State.databaseStore]
    split
    · exact ⟨rfl, rfl⟩
    · split <;> exact ⟨rfl, rfl⟩
  | reply k r kn a =>
    have key : ∀ (l : List Bytes) (s : State), (l.foldl (fun s r => s.ask a r) s).leaseSet = s.leaseSet ∧ (l.foldl (fun s r => s.ask a r) s).tunnels = s.tunnels := by
      intro l
      induction l with
      | nil => intro s; exact ⟨rfl, rfl⟩
      | cons x l ih =>
        intro s
        show (List.foldl _ (s.ask a x) l).leaseSet = _ ∧ (List.foldl _ (s.ask a x) l).tunnels = _
        rw [(ih _).1, (ih _).2]
        unfold State.ask
        split <;> exact ⟨rfl, rfl⟩
    dsimp only [State.searchReply]
    split
    · exact ⟨rfl, rfl⟩
    · split
      · exact ⟨rfl, rfl⟩
      · exact key _ _
  | built l =>
    dsimp only [State.inbound]
    split
    · exact ⟨rfl, rfl⟩
    · split <;> exact ⟨rfl, rfl⟩
  | expiring id =>
    dsimp only [State.expire]
    split
    · rename_i h; rw [h]; exact ⟨rfl, rfl⟩
    · rename_i h; rw [h]; exact ⟨rfl, rfl⟩
  | expired id => exact ⟨rfl, rfl⟩
  | poll t => exact ⟨(frame_poll chk s t).leaseSet, (frame_poll chk s t).tunnels⟩
  | result r ok k =>
    dsimp only [State.result]
    split
    · split
      · split <;> exact ⟨rfl, rfl⟩
      · exact ⟨rfl, rfl⟩
    · exact ⟨rfl, rfl⟩

end Emissary.Publish
