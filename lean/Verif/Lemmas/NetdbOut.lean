import Verif.Lemmas.NetdbCore
/-! What each part of the netdb task may add to the log. -/
namespace Emissary.NetdbRun
open Emissary Emissary.Netdb

/-- The log grows, by outputs of a class. -/
def Adds (C : Out → Prop) (s s' : State) : Prop := ∃ l, s'.log = s.log ++ l ∧ ∀ o ∈ l, C o

theorem Adds.same {C : Out → Prop} {s s' : State} (h : s'.log = s.log) : Adds C s s' := ⟨[], by simp [h], by simp⟩
theorem Adds.one {C : Out → Prop} {s s' : State} {o : Out} (h : s'.log = s.log ++ [o]) (hc : C o) : Adds C s s' := ⟨[o], h, by simp [hc]⟩
theorem Adds.many {C : Out → Prop} {s s' : State} {l : List Out} (h : s'.log = s.log ++ l) (hc : ∀ o ∈ l, C o) : Adds C s s' := ⟨l, h, hc⟩
theorem Adds.trans {C : Out → Prop} {a b c : State} (h : Adds C a b) (g : Adds C b c) : Adds C a c := by
  obtain ⟨l, e, hl⟩ := h
  obtain ⟨m, f, hm⟩ := g
  refine ⟨l ++ m, by rw [f, e, List.append_assoc], ?_⟩
  intro o ho
  rcases List.mem_append.mp ho with h | h
  · exact hl o h
  · exact hm o h
theorem Adds.mono {C D : Out → Prop} {s s' : State} (h : Adds C s s') (hd : ∀ o, C o → D o) : Adds D s s' :=
  let ⟨l, e, hl⟩ := h
  ⟨l, e, fun o ho => hd o (hl o ho)⟩
theorem Adds.mem {C : Out → Prop} {s s' : State} (h : Adds C s s') {o : Out} (ho : o ∈ s'.log) : o ∈ s.log ∨ C o := by
  obtain ⟨l, e, hl⟩ := h
  rw [e] at ho
  rcases List.mem_append.mp ho with h | h
  · exact .inl h
  · exact .inr (hl o h)

/-- Dials and messages to routers. -/
def Out.isSend : Out → Prop
  | .connect _ => True
  | .send _ _ => True
  | _ => False

/-- Outputs of searches: lookups over the given tunnels, outcomes of queries, charges. -/
def Out.isWork (outT : List Nat) (inT : List Lease) : Out → Prop
  | .lookup _ _ _ o i => o ∈ outT ∧ i ∈ inT
  | .cancel _ => True
  | .leaseSet _ (.err _) => True
  | .routerInfo _ (.err _) => True
  | .charge _ => True
  | _ => False

theorem adds_sendOne (s : State) (env : Env) (m : Msg) (e : Option Nat) (r : Bytes) : Adds Out.isSend s (s.sendOne env m e r) := by
  unfold State.sendOne
  split
  · split
    · exact .one rfl trivial
    · exact .same rfl
  · exact .same rfl
  · exact .one rfl trivial

theorem adds_send (s : State) (env : Env) (rs : List Bytes) (m : Msg) (e : Option Nat) : Adds Out.isSend s (s.send env rs m e) := by
  unfold State.send
  induction rs generalizing s with
  | nil => exact .same rfl
  | cons r rs ih => exact (adds_sendOne s env m e r).trans (ih _)

theorem adds_established (s : State) (env : Env) (r : Bytes) : Adds Out.isSend s (s.established env r) := by
  unfold State.established
  dsimp only
  split <;>
  · refine .many rfl ?_
    intro o ho
    split at ho
    · obtain ⟨m, _, h⟩ := List.mem_filterMap.mp ho
      split at h
      · injection h with h; subst h; trivial
      · split at h
        · injection h with h; subst h; trivial
        · cases h
    · cases ho

theorem adds_flood (s : State) (env : Env) (key : Bytes) (reply : StoreReply) (m : Msg) (e : Nat) : Adds Out.isSend s (s.flood env key reply m e) := by
  unfold State.flood
  split
  · exact .same rfl
  · exact (adds_send _ _ _ _ _).trans (adds_send _ _ _ _ _)

theorem log_addFloodfill (s : State) (r : RInfo) : (s.addFloodfill r).log = s.log := by unfold State.addFloodfill; split <;> rfl
theorem log_credit (s : State) (x : Option Bytes) : (s.credit x).log = s.log := by unfold State.credit; split <;> rfl
theorem log_discredit (s : State) (x : Option Bytes) : (s.discredit x).log = s.log := by unfold State.discredit; split <;> rfl

theorem log_fetched (s : State) (x : Option Bytes) (r : RInfo) :
    (s.fetched x r).log = if r.netId = s.netId ∧ r.id ≠ s.localId then s.log ++ [.discover r] else s.log := by
  unfold State.fetched
  by_cases h1 : r.netId = s.netId
  · rw [if_neg (by simpa using h1)]
    by_cases h2 : r.id = s.localId
    · rw [if_pos h2, if_neg (by simp [h2])]
    · rw [if_neg h2, if_pos ⟨h1, h2⟩]
      dsimp only
      show (State.credit _ x).log ++ _ = _
      rw [log_credit]
      show (s.addFloodfill r).log ++ _ = _
      rw [log_addFloodfill]
  · rw [if_pos h1, if_neg (by simp [h1])]

theorem next_mem {α : Type} {x : Selector α} {t : α} (h : x.next.2 = some t) : t ∈ x.tunnels := by
  unfold Selector.next at h
  split at h
  · cases h
  · exact List.mem_of_getElem? h

theorem adds_lookup (s : State) (env : Env) (f k : Bytes) (kind : LookupKind) :
    Adds (fun o => ∃ out ∈ s.outTun.tunnels, ∃ inb ∈ s.inTun.tunnels, o = .lookup f k kind out inb) s (s.lookup env f k kind).1 := by
  unfold State.lookup
  split
  · next s1 e =>
    unfold State.tunnels at e
    split at e
    · injection e with e _; subst e; exact .same rfl
    · split at e
      · injection e with e _; subst e; exact .same rfl
      · injection e with _ e; cases e
  · next s1 out inb e =>
    have h : s1.log = s.log ∧ out ∈ s.outTun.tunnels ∧ inb ∈ s.inTun.tunnels := by
      unfold State.tunnels at e
      split at e
      · injection e with _ e; cases e
      · next ho =>
        split at e
        · injection e with _ e; cases e
        · next hi =>
          injection e with e1 e2
          injection e2 with e2
          injection e2 with e2 e3
          subst e1; subst e2; subst e3
          exact ⟨rfl, next_mem (by rw [ho]), next_mem (by rw [hi])⟩
    split
    · exact .one (congrArg (· ++ _) h.1) ⟨out, h.2.1, inb, h.2.2, rfl⟩
    · exact .same h.1

theorem adds_activate (s : State) (k : Bytes) (x : Kind) : Adds (fun o => ∃ tx, o = .cancel tx) s (s.activate k x) := by
  unfold State.activate
  dsimp only
  split
  · refine .many rfl ?_
    intro o ho
    obtain ⟨tx, _, e⟩ := List.mem_map.mp ho
    exact ⟨tx, e.symm⟩
  · exact .same rfl

/-- Lookups and activations are work, over the tunnels there are. -/
def Works (s s' : State) : Prop := s'.core = s.core ∧ Adds (Out.isWork s.outTun.tunnels s.inTun.tunnels) s s'

theorem Works.trans {a b c : State} (h : Works a b) (g : Works b c) : Works a c := by
  refine ⟨g.1.trans h.1, h.2.trans ?_⟩
  have e1 : b.outTun.tunnels = a.outTun.tunnels := congrArg Core.outT h.1
  have e2 : b.inTun.tunnels = a.inTun.tunnels := congrArg Core.inT h.1
  rw [← e1, ← e2]
  exact g.2

theorem Works.same {s s' : State} (hc : s'.core = s.core) (hl : s'.log = s.log) : Works s s' := ⟨hc, .same hl⟩

theorem works_lookup (s : State) (env : Env) (f k : Bytes) (kind : LookupKind) : Works s (s.lookup env f k kind).1 :=
  ⟨core_lookup s env f k kind, (adds_lookup s env f k kind).mono (by rintro o ⟨out, h1, inb, h2, rfl⟩; exact ⟨h1, h2⟩)⟩

theorem works_activate (s : State) (k : Bytes) (x : Kind) : Works s (s.activate k x) :=
  ⟨core_activate s k x, (adds_activate s k x).mono (by rintro o ⟨tx, rfl⟩; trivial)⟩

theorem works_begin (s : State) (k : Bytes) (x : Kind) : Works s ((s.activate k x).arm k) :=
  (works_activate s k x).trans (.same rfl rfl)

theorem works_fetches (s : State) (env : Env) (replier : Bytes) (rs : List Bytes) : Works s (s.fetches env replier rs) := by
  unfold State.fetches
  induction rs generalizing s with
  | nil => exact .same rfl rfl
  | cons r rs ih =>
    refine Works.trans (b := s.fetch env replier r) ?_ (ih _)
    have g := works_lookup s env replier r .router
    unfold State.fetch
    split
    · next s1 _ e => rw [e] at g; exact g.trans (works_begin s1 r _)
    · next s1 _ e => rw [e] at g; exact g

theorem works_charge (s : State) (q : Query) : Works s (s.charge q) := by
  unfold State.charge
  split
  · exact ⟨rfl, .one rfl trivial⟩
  · exact .same rfl rfl

theorem works_completeLs (s : State) (q : Query) (e : QErr) : Works s (s.completeLs q (.err e)) := by
  refine ⟨rfl, .many rfl ?_⟩
  intro o ho
  obtain ⟨tx, _, h⟩ := List.mem_map.mp ho
  subst h
  trivial

theorem works_completeRi (s : State) (q : Query) (e : QErr) : Works s (s.completeRi q (.err e)) := by
  refine ⟨rfl, .many rfl ?_⟩
  intro o ho
  obtain ⟨tx, _, h⟩ := List.mem_map.mp ho
  subst h
  trivial

theorem works_timeout (s : State) (env : Env) (key : Bytes) (k : Kind) : Works s (s.handleTimeout env key k) := by
  unfold State.handleTimeout
  cases k with
  | exploration => exact .same rfl rfl
  | router => exact .same rfl rfl
  | leaseSet q =>
    dsimp only
    have hc := works_charge s q
    generalize s.charge q = s1 at *
    split
    · exact hc.trans (works_completeLs s1 _ _)
    · next q' f _ =>
      have g := works_lookup s1 env f key .leaseSet
      split
      · next s2 _ e => rw [e] at g; exact (hc.trans g).trans (works_begin s2 key _)
      · next s2 _ e => rw [e] at g; exact (hc.trans g).trans (works_completeLs s2 _ _)
  | routerInfo q =>
    dsimp only
    have hc := works_charge s q
    generalize s.charge q = s1 at *
    split
    · exact hc.trans (works_completeRi s1 _ _)
    · next q' f _ =>
      have g := works_lookup s1 env f key .router
      split
      · next s2 _ e => rw [e] at g; exact (hc.trans g).trans (works_begin s2 key _)
      · next s2 _ e => rw [e] at g; exact (hc.trans g).trans (works_begin s2 key _)

theorem works_fire (s : State) (env : Env) (i : Nat) : Works s (s.fire env i) := by
  unfold State.fire
  split
  · exact .same rfl rfl
  split
  · exact .same rfl rfl
  split
  · exact .same rfl rfl
  · next key _ _ _ _ k _ =>
    exact (Works.same (s' := State.take { s with timers := s.timers.eraseIdx i } key) rfl rfl).trans (works_timeout _ env key k)

theorem works_fireAll (env : Env) (fuel : Nat) (s : State) : Works s (State.fireAll env fuel s) := by
  induction fuel generalizing s with
  | zero => exact .same rfl rfl
  | succ fuel ih =>
    unfold State.fireAll
    split
    · exact .same rfl rfl
    · exact (works_fire s env _).trans (ih _)

theorem works_explore (s : State) (env : Env) (key : Bytes) : Works s (s.explore env key) := by
  unfold State.explore
  split
  · exact .same rfl rfl
  · next f _ =>
    have g := works_lookup s env f key .exploration
    split
    · next s3 _ e => rw [e] at g; exact g.trans (works_begin s3 key _)
    · next s3 _ e => rw [e] at g; exact g

theorem works_queryLs (s : State) (env : Env) (key : Bytes) (t : Nat) : Works s (s.queryLs env key t) := by
  unfold State.queryLs
  split
  · exact .same rfl rfl
  · exact ⟨rfl, .one rfl trivial⟩
  · split
    · exact ⟨rfl, .one rfl trivial⟩
    · next f _ =>
      have g := works_lookup s env f key .leaseSet
      split
      · next s1 _ e => rw [e] at g; exact g.trans (works_begin s1 key _)
      · next s1 x e => rw [e] at g; exact g.trans ⟨rfl, .one rfl trivial⟩

theorem works_queryRi (s : State) (env : Env) (key : Bytes) (t : Nat) : Works s (s.queryRi env key t) := by
  unfold State.queryRi
  split
  · exact .same rfl rfl
  · exact ⟨rfl, .one rfl trivial⟩
  · split
    · exact ⟨rfl, .one rfl trivial⟩
    · next f _ =>
      have g := works_lookup s env f key .router
      split
      · next s1 _ e => rw [e] at g; exact g.trans (works_begin s1 key _)
      · next s1 x e => rw [e] at g; exact g.trans ⟨rfl, .one rfl trivial⟩

theorem works_search (s : State) (env : Env) (sender : Option Bytes) (m : Option (Bytes × List Bytes × Bytes)) : Works s (s.searchMsg env sender m) := by
  have c : Works s (s.discredit sender) := .same (core_discredit s sender) (log_discredit s sender)
  unfold State.searchMsg
  cases m with
  | none => exact c
  | some m =>
    obtain ⟨key, routers, replier⟩ := m
    dsimp only
    have c1 : Works s ((s.discredit sender).take key) := c.trans (.same rfl rfl)
    generalize (s.discredit sender).take key = s1 at *
    unfold State.searchAt
    cases s.active.get key with
    | none => exact c1
    | some k =>
      cases k with
      | router => exact c1
      | exploration => exact c1.trans (works_fetches _ _ _ _)
      | leaseSet q => exact (c1.trans (works_fetches _ _ _ _)).trans (works_activate _ _ _)
      | routerInfo q => exact (c1.trans (works_fetches _ _ _ _)).trans (works_activate _ _ _)

theorem adds_tick (s : State) (env : Env) (key : Bytes) : Adds (Out.isWork s.outTun.tunnels s.inTun.tunnels) s (s.tick env key) := by
  unfold State.tick
  have a := works_fireAll env s.timers.length s
  generalize State.fireAll env s.timers.length s = s1 at *
  have e1 : s1.outTun.tunnels = s.outTun.tunnels := congrArg Core.outT a.1
  have e2 : s1.inTun.tunnels = s.inTun.tunnels := congrArg Core.inT a.1
  refine a.2.trans ?_
  rw [← e1, ← e2]
  have u : s1.upkeep.log = s1.log ∧ s1.upkeep.outTun = s1.outTun ∧ s1.upkeep.inTun = s1.inTun := by
    unfold State.upkeep; split <;> exact ⟨rfl, rfl, rfl⟩
  rw [← u.2.1, ← u.2.2]
  refine (Adds.same u.1).trans ?_
  generalize s1.upkeep = s2 at *
  unfold State.exploration
  split
  · exact .same rfl
  · split
    · exact (works_explore s2 env key).2.trans (.same rfl)
    · exact .same rfl

end Emissary.NetdbRun
