import Verif.Props.Publisher
/-!
# C158 to C162: when the publisher sends, when it stops, and what makes it do the wrong thing
-/
namespace Emissary.Publish
open Emissary.I2np (Duration)
open Emissary.Dest (Lease)

/-! ## C158: pace -/

/-- A store that was sent at `a` fits to the phase. -/
def StoreFits (a now : Nat) : Phase → Prop
  | .flooding r => a + 10 * 1000000000 ≤ r
  | .verify st _ => a + 10 * 1000000000 ≤ st
  | .retry (.verify st) _ => a + 10 * 1000000000 ≤ st
  | .publish => a + 25 * 1000000000 ≤ now
  | .retry .publish _ => a + 25 * 1000000000 ≤ now
  | .inactive => True
  | .poisoned => True
  | _ => False

/-- A lookup that was sent at `a` fits to the phase. -/
def LookupFits (a now : Nat) : Phase → Prop
  | .flooding r => a + 2 * 1000000000 ≤ r
  | .verify _ (some r) => a + 2 * 1000000000 ≤ r
  | .verify _ none => a + 2 * 1000000000 ≤ now
  | .retry (.verify _) _ => a + 2 * 1000000000 ≤ now
  | .publish => a ≤ now
  | .retry .publish _ => a ≤ now
  | .inactive => True
  | .poisoned => True
  | _ => False

/-- What was sent fits to the phase. -/
def Fits (now : Nat) (p : Phase) : Out → Prop
  | .store a _ _ _ _ => a ≤ now ∧ StoreFits a now p
  | .lookup a _ _ _ => a ≤ now ∧ LookupFits a now p
  | _ => True

/-- What was sent since `L` is paced. -/
def Paced (L : List Out) (s : State) : Prop := ∃ new, s.log = L ++ new ∧ new.Pairwise Apart ∧ ∀ o ∈ new, Fits s.now s.phase o

theorem Paced.of {L : List Out} {s s' : State} (h : Paced L s) (hl : s'.log = s.log) (hf : ∀ o, Fits s.now s.phase o → Fits s'.now s'.phase o) : Paced L s' := by
  obtain ⟨new, e, hp, hn⟩ := h
  exact ⟨new, hl.trans e, hp, fun o ho => hf o (hn o ho)⟩

theorem Paced.add {L : List Out} {s s' : State} (h : Paced L s) (o : Out) (hl : s'.log = s.log ++ [o]) (ha : ∀ x, Fits s.now s.phase x → Apart x o)
    (hf : ∀ x, Fits s.now s.phase x → Fits s'.now s'.phase x) (ho : Fits s'.now s'.phase o) : Paced L s' := by
  obtain ⟨new, e, hp, hn⟩ := h
  refine ⟨new ++ [o], by rw [hl, e, List.append_assoc], ?_, ?_⟩
  · rw [List.pairwise_append]
    refine ⟨hp, List.pairwise_singleton _ _, ?_⟩
    intro x hx y hy
    rw [List.mem_singleton] at hy
    subst hy
    exact ha x (hn x hx)
  · intro x hx
    rcases List.mem_append.mp hx with hx | hx
    · exact hf x (hn x hx)
    · rw [List.mem_singleton] at hx
      subst hx
      exact ho

theorem fits_time {now now' : Nat} (hn : now ≤ now') (p : Phase) : ∀ o, Fits now p o → Fits now' p o := by
  intro o h
  cases o with
  | store a f k l r =>
    obtain ⟨h1, h2⟩ := h
    refine ⟨Nat.le_trans h1 hn, ?_⟩
    cases p with
    | retry k _ => cases k <;> simp only [StoreFits] at h2 ⊢ <;> omega
    | _ => simp only [StoreFits] at h2 ⊢ <;> omega
  | lookup a f k r =>
    obtain ⟨h1, h2⟩ := h
    refine ⟨Nat.le_trans h1 hn, ?_⟩
    cases p with
    | retry k _ => cases k <;> simp only [LookupFits] at h2 ⊢ <;> omega
    | verify st t => cases t <;> simp only [LookupFits] at h2 ⊢ <;> omega
    | _ => simp only [LookupFits] at h2 ⊢ <;> omega
  | _ => trivial

/-- From one phase to another. -/
theorem fits_phase {now : Nat} {p q : Phase} (h1 : ∀ a, a ≤ now → StoreFits a now p → StoreFits a now q) (h2 : ∀ a, a ≤ now → LookupFits a now p → LookupFits a now q) : ∀ o, Fits now p o → Fits now q o := by
  intro o h
  cases o with
  | store a f k l r => exact ⟨h.1, h1 a h.1 h.2⟩
  | lookup a f k r => exact ⟨h.1, h2 a h.1 h.2⟩
  | _ => trivial

theorem fits_none {now : Nat} {p q : Phase} (h1 : ∀ a, ¬ StoreFits a now p) (h2 : ∀ a, ¬ LookupFits a now p) : ∀ o, Fits now p o → Fits now q o :=
  fits_phase (fun a _ h => absurd h (h1 a)) (fun a _ h => absurd h (h2 a))

theorem paced_store {L : List Out} {s : State} (h : Paced L s) (hp : s.phase = .publish) (t : Turn) : Paced L (s.sendStore t) := by
  unfold State.sendStore
  split
  · refine h.of rfl ?_
    rw [hp]
    exact fits_phase (fun a _ h => h) (fun a _ h => h)
  · split
    · refine h.add _ rfl ?_ ?_ ?_
      · rw [hp]
        intro x hx
        cases x with
        | store a f k l r => exact hx.2
        | lookup a f k r => exact hx.1
        | _ => trivial
      · rw [hp]
        refine fits_phase (now := s.now) ?_ ?_
        · intro a ha _
          show a + 10 * 1000000000 ≤ s.now + floodWait
          unfold floodWait
          exact Nat.add_le_add_right ha _
        · intro a ha _
          show a + 2 * 1000000000 ≤ s.now + floodWait
          exact Nat.add_le_add ha (by decide)
      · exact ⟨Nat.le_refl _, Nat.le_refl _⟩
    · refine h.of rfl ?_
      rw [hp]
      exact fits_phase (fun a _ h => h) (fun a _ h => h)

theorem paced_lookup {L : List Out} {s : State} {d : Duration} (h : Paced L s) (hp : s.phase = .verify d none) (hd : d ≤ s.now) (t : Turn) : Paced L (s.sendLookup t d) := by
  unfold State.sendLookup
  split
  · refine h.of rfl ?_
    rw [hp]
    exact fits_phase (fun a _ h => h) (fun a _ h => h)
  · split
    · refine h.add _ rfl ?_ ?_ ?_
      · rw [hp]
        intro x hx
        cases x with
        | store a f k l r => exact Nat.le_trans hx.2 hd
        | lookup a f k r => exact hx.2
        | _ => trivial
      · rw [hp]
        refine fits_phase (now := s.now) (fun a _ h => h) ?_
        intro a ha _
        exact Nat.add_le_add_right ha _
      · exact ⟨Nat.le_refl _, Nat.le_refl _⟩
    · refine h.of rfl ?_
      rw [hp]
      exact fits_phase (fun a _ h => h) (fun a _ h => h)

/-- The verification did not start in the future. -/
def Started (s : State) : Prop := match s.phase with
  | .verify d _ => d ≤ s.now
  | .retry (.verify d) _ => d ≤ s.now
  | _ => True

theorem started_closest (s : State) (b : Bool) : Started (s.getClosest b) := by
  unfold Started State.getClosest closestPhase
  cases b <;> trivial

theorem started_turn {chk : Bool} {s : State} (h : Started s) (t : Turn) : Started (s.turn chk t).1 := by
  unfold State.turn
  split
  · split
    · exact started_closest s _
    · exact h
  · rename_i k r hp
    unfold Started at h
    rw [hp] at h
    split
    · cases k with
      | closest => exact started_closest s _
      | publish => trivial
      | verify d => exact h
    · unfold Started; rw [hp]; exact h
  · rename_i hp
    split
    · exact h
    · trivial
    · unfold State.gotClosest Started
      dsimp only
      split <;> grind
  · unfold State.sendStore
    split
    · trivial
    · split <;> trivial
  · split
    · exact Nat.le_refl _
    · exact h
  · rename_i d tm hp
    have hd : d ≤ s.now := by unfold Started at h; rw [hp] at h; exact h
    split
    · trivial
    · split
      · unfold State.sendLookup
        split
        · exact hd
        · split <;> exact hd
      · split
        · exact hd
        · exact h
  · exact h
  · exact h
  · exact h

theorem fits_closest {now : Nat} {p : Phase} (b : Bool) (h1 : ∀ a, ¬ StoreFits a now p) (h2 : ∀ a, ¬ LookupFits a now p) : ∀ o, Fits now p o → Fits now (closestPhase now b) o := fits_none h1 h2

theorem again_time {a d n : Nat} (h1 : a + 10 * 1000000000 ≤ d) (h2 : 15 * 1000000000 ≤ n - d) (h3 : d ≤ n) : a + 25 * 1000000000 ≤ n := by omega

theorem paced_turn {chk : Bool} {L : List Out} {s : State} (h : Paced L s) (hs : Started s) (t : Turn) : Paced L (s.turn chk t).1 := by
  unfold State.turn
  split
  · rename_i r hp
    split
    · refine h.of rfl ?_
      rw [hp]
      exact fits_none (fun a h => h) (fun a h => h)
    · exact h
  · rename_i k r hp
    split
    · refine Paced.of h (by cases k <;> rfl) ?_
      rw [hp]
      cases k with
      | closest => exact fits_none (fun a h => h) (fun a h => h)
      | publish => exact fits_phase (fun a _ h => h) (fun a _ h => h)
      | verify d => exact fits_phase (fun a _ h => h) (fun a _ h => h)
    · exact h
  · rename_i hp
    split
    · exact h
    · refine h.of rfl ?_
      rw [hp]
      exact fits_none (fun a h => h) (fun a h => h)
    · refine h.of rfl ?_
      rw [hp]
      exact fits_none (fun a h => h) (fun a h => h)
  · rename_i hp
    exact paced_store h hp t
  · rename_i r hp
    split
    · rename_i hr
      refine h.of rfl ?_
      rw [hp]
      exact fits_phase (fun a _ h => Nat.le_trans h hr) (fun a _ h => Nat.le_trans h hr)
    · exact h
  · rename_i d tm hp
    have hd : d ≤ s.now := by unfold Started at hs; rw [hp] at hs; exact hs
    split
    · rename_i hw
      refine h.of rfl ?_
      rw [hp]
      refine fits_phase (now := s.now) ?_ (fun a ha _ => ha)
      intro a _ hx
      exact again_time hx hw hd
    · split
      · exact paced_lookup h hp hd t
      · rename_i r
        split
        · rename_i hr
          refine h.of rfl ?_
          rw [hp]
          exact fits_phase (fun a _ h => h) (fun a _ h => Nat.le_trans h hr)
        · exact h
  · exact h.of rfl fun o h => h
  · exact h
  · exact h

theorem log_ask (a : Bytes → Bool) (l : List Bytes) : ∀ s : State, ∃ n, (l.foldl (fun s r => s.ask a r) s).log = s.log ++ n ∧ (∀ o ∈ n, ∃ r, o = Out.query r)
    ∧ (l.foldl (fun s r => s.ask a r) s).now = s.now ∧ (l.foldl (fun s r => s.ask a r) s).phase = s.phase := by
  induction l with
  | nil => intro s; exact ⟨[], by simp, by simp, rfl, rfl⟩
  | cons x l ih =>
    intro s
    obtain ⟨n, h1, h2, h3, h4⟩ := ih (s.ask a x)
    unfold State.ask at h1 h3 h4
    show ∃ n, (List.foldl _ (s.ask a x) l).log = _ ∧ _ ∧ (List.foldl _ (s.ask a x) l).now = _ ∧ (List.foldl _ (s.ask a x) l).phase = _
    unfold State.ask
    by_cases hx : a x = true
    · simp only [hx, if_true] at h1 h3 h4 ⊢
      refine ⟨.query x :: n, ?_, ?_, h3, h4⟩
      · rw [h1]
        show s.log ++ [_] ++ n = _
        rw [List.append_assoc]
        rfl
      · intro o ho
        rcases List.mem_cons.mp ho with rfl | ho
        · exact ⟨x, rfl⟩
        · exact h2 o ho
    · simp only [hx] at h1 h3 h4 ⊢
      exact ⟨n, h1, h2, h3, h4⟩

theorem paced_step {chk : Bool} {L : List Out} {s : State} (h : Paced L s ∧ Started s) (o : Op) (ho : isBuilt o = false) : Paced L (s.step chk o) ∧ Started (s.step chk o) := by
  obtain ⟨h, hs⟩ := h
  unfold State.step
  split
  · exact ⟨h, hs⟩
  cases o with
  | tick t =>
    refine ⟨h.of rfl (fits_time (Nat.le_max_left _ _) _), ?_⟩
    unfold Started at hs ⊢
    dsimp only
    split
    · rename_i hp; rw [hp] at hs; exact Nat.le_trans hs (Nat.le_max_left _ _)
    · rename_i hp; rw [hp] at hs; exact Nat.le_trans hs (Nat.le_max_left _ _)
    · trivial
  | leaseSet raw cmd =>
    dsimp only [State.registerLeaseSet]
    split
    · exact ⟨h.of rfl fun o h => h, hs⟩
    · split
      · rename_i hp
        refine ⟨h.of rfl ?_, started_closest _ _⟩
        have hp' : s.phase = .awaitingLeaseSet := hp
        rw [hp']
        exact fits_none (fun a h => h) (fun a h => h)
      · exact ⟨h.of rfl fun o h => h, hs⟩
  | store k raw =>
    dsimp only [State.databaseStore]
    split
    · exact ⟨h, hs⟩
    · split
      · refine ⟨h.of rfl (fits_phase (fun _ _ _ => trivial) (fun _ _ _ => trivial)), trivial⟩
      · exact ⟨h, hs⟩
  | reply k r kn a =>
    dsimp only [State.searchReply]
    split
    · exact ⟨h, hs⟩
    · split
      · exact ⟨h, hs⟩
      · obtain ⟨n, h1, h2, h3, h4⟩ := log_ask a (r.filter fun r => (kn r).isNone && !decide (r ∈ s.pending)).eraseDups (s.learn r kn)
        refine ⟨?_, ?_⟩
        · obtain ⟨new, e, hp, hn⟩ := h
          refine ⟨new ++ n, ?_, ?_, ?_⟩
          · rw [h1]
            show s.log ++ n = _
            rw [e, List.append_assoc]
          · rw [List.pairwise_append]
            refine ⟨hp, ?_, ?_⟩
            · refine List.Pairwise.imp_of_mem (R := fun _ _ => True) ?_ (List.pairwise_of_forall fun _ _ => trivial)
              intro x y hx hy _
              obtain ⟨_, rfl⟩ := h2 x hx
              trivial
            · intro x hx y hy
              obtain ⟨_, rfl⟩ := h2 y hy
              cases x <;> trivial
          · intro o ho
            rw [h3, h4]
            rcases List.mem_append.mp ho with ho | ho
            · exact hn o ho
            · obtain ⟨_, rfl⟩ := h2 o ho
              trivial
        · unfold Started
          rw [h3, h4]
          exact hs
  | built l => cases ho
  | expiring id =>
    dsimp only [State.expire]
    split <;> exact ⟨h.of rfl fun o h => h, hs⟩
  | expired id => exact ⟨h.of rfl fun o h => h, hs⟩
  | poll t => exact turns_inv (P := fun s => Paced L s ∧ Started s) (fun s t h => ⟨paced_turn h.1 h.2 t, started_turn h.2 t⟩) _ s t ⟨h, hs⟩
  | result r ok k =>
    dsimp only [State.result]
    split
    · split
      · split <;> exact ⟨h.of rfl fun o h => h, hs⟩
      · exact ⟨h.of rfl fun o h => h, hs⟩
    · exact ⟨h, hs⟩

/-- As long as no new inbound tunnel is built, a lease set is stored again only after 25 seconds, nobody is asked for it within ten seconds after it was stored, and two lookups
are at least two seconds apart. -/
theorem C158_paced (chk : Bool) (s : State) (hs : Started s) (ops : List Op) (ho : ∀ o ∈ ops, isBuilt o = false) : ∃ new, (s.run chk ops).log = s.log ++ new ∧ new.Pairwise Apart := by
  obtain ⟨⟨new, e, hp, _⟩, _⟩ := run_inv (P := fun x => Paced s.log x ∧ Started x) (chk := chk) (ops := ops) (fun x o hx h => paced_step h o (ho o hx)) ops s (fun _ h => h)
    ⟨⟨[], by simp, .nil, by simp⟩, hs⟩
  exact ⟨new, e, hp⟩

/-- `Started` holds in all states that are reached. -/
theorem C158_started (chk : Bool) (t : Duration) (tunnels : List Lease) (key : Bytes) (num : Nat) (u : Bool) (ls : Bytes) (cmd : Bool) (ops : List Op) :
    Started ((State.new t tunnels key num u ls cmd).run chk ops) := by
  refine run_inv (P := Started) (chk := chk) (ops := ops) ?_ ops _ (fun _ h => h) ?_
  · intro s o _ h
    cases o with
    | built l =>
      unfold State.step
      split
      · exact h
      · dsimp only [State.inbound]
        split
        · exact h
        · split <;> trivial
    | _ => exact (paced_step (chk := chk) (L := s.log ) ⟨⟨[], by simp, .nil, by simp⟩, h⟩ _ rfl).2
  · unfold Started State.new closestPhase
    cases u <;> cases cmd <;> trivial

end Emissary.Publish
