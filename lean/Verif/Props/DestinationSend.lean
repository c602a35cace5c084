import Verif.Props.Destination
/-!
# C150 to C155: where the messages of a destination go, and what it does with what it receives
-/
namespace Emissary.Dest
open Emissary.I2np (Duration)

/-! ## Specification -/

/-- The lease sets of `d` among the cloves of a message; one without leases does not count. -/
def setsOf (d : Nat) (l : List Clove) : List LSet := l.filterMap fun c => match c with
  | .store ls => if ls.dest = d ∧ ls.leases ≠ [] then some ls else none
  | _ => none

/-- What the user gets of a message: the bodies of the data messages in it, in order, each without the four bytes in front. -/
def payloads (l : List Clove) : List Bytes := l.filterMap fun c => match c with
  | .data b => if 4 < b.length then some (b.drop 4) else none
  | _ => none

/-- The message that an operation hands over for `d`, if the destination takes it: its session can encrypt it and there is a lease set for `d`. -/
def taken (s : State) (d : Nat) : Op → List Bytes
  | .send st (some m) _ _ => if st.dest = d ∧ s.leaseSet d ≠ none then [m] else []
  | .sessionSend e m _ _ => if e = d ∧ s.leaseSet d ≠ none then [m] else []
  | _ => []

/-- The messages for `d` that are taken in a history. -/
def takenIn (chk : Bool) (d : Nat) : State → List Op → List Bytes
  | _, [] => []
  | s, o :: l => taken s d o ++ takenIn chk d (s.step chk o) l

/-- The messages for `d` that have left, or were dropped because the tunnel pool did not take them or the route was unknown. -/
def gone (d : Nat) (log : List Out) : List Bytes := log.flatMap fun o => match o with
  | .sent e m _ _ _ _ => if e = d then [m] else []
  | .lost e m => if e = d then [m] else []
  | _ => []

/-- The messages for `d` that left, in order. -/
def left (d : Nat) (log : List Out) : List Bytes := log.filterMap fun o => match o with
  | .sent e m _ _ _ _ => if e = d then some m else none
  | _ => none

/-- The messages for `d` that wait for a lease set. -/
def waiting (s : State) (d : Nat) : List Bytes := match s.remotes.get d with
  | some c => c.held
  | none => []

/-! ## Lease sets -/

theorem leaseSet_learn (s : State) (l : LSet) (d : Nat) : (s.learn l).leaseSet d = if d = l.dest then some l else s.leaseSet d := by
  show ((s.remotes.put l.dest _).get d).map (·.ls) = _
  rw [AMap.get_put]
  split
  · cases s.remotes.get l.dest <;> rfl
  · rfl

theorem leaseSet_clove (chk : Bool) (s : State) (c : Clove) (d : Nat) : (s.clove chk c).1.leaseSet d = ((setsOf d [c])[0]?).or (s.leaseSet d) := by
  cases c with
  | store l =>
    unfold State.clove setsOf
    dsimp only
    by_cases e : l.leases = []
    · rw [if_pos e]; simp [e]
    · rw [if_neg e]
      show (State.learn _ l).leaseSet d = _
      rw [leaseSet_learn]
      by_cases h : l.dest = d
      · simp [h, e]
      · simp only [if_neg (Ne.symm h)]
        have : ([Clove.store l].filterMap fun c => match c with | .store ls => if ls.dest = d ∧ ls.leases ≠ [] then some ls else none | _ => none) = [] := by simp [h]
        rw [this]; rfl
  | data b => unfold State.clove; dsimp only; split <;> rfl
  | other => rfl

theorem setsOf_cons (d : Nat) (c : Clove) (l : List Clove) : setsOf d (c :: l) = setsOf d [c] ++ setsOf d l := by
  show setsOf d ([c] ++ l) = _
  unfold setsOf
  rw [List.filterMap_append]

theorem setsOf_one (d : Nat) (c : Clove) : setsOf d [c] = [] ∨ ∃ x, setsOf d [c] = [x] := by
  unfold setsOf
  rw [List.filterMap_cons]
  split
  · exact .inl rfl
  · exact .inr ⟨_, rfl⟩

theorem leaseSet_cloves (chk : Bool) (d : Nat) (l : List Clove) : ∀ s : State, (s.cloves chk l).1.leaseSet d = ((setsOf d l).getLast?).or (s.leaseSet d) := by
  induction l with
  | nil => intro s; rfl
  | cons c l ih =>
    intro s
    show (((s.clove chk c).1).cloves chk l).1.leaseSet d = _
    rw [ih, leaseSet_clove, setsOf_cons d c l, List.getLast?_append]
    rcases setsOf_one d c with e | ⟨x, e⟩ <;> rw [e] <;> cases (setsOf d l).getLast? <;> rfl

/-- Which lease set is known for a remote: the last one that arrived, in a message or as the answer to a query for that remote. Nothing else changes it, and
in particular a message changes it only for the remotes that signed a lease set in that message. -/
theorem C150_latest (chk : Bool) (s : State) (o : Op) (d : Nat) :
    (s.step chk o).leaseSet d = match o with
      | .receive l => ((setsOf d l).getLast?).or (s.leaseSet d)
      | .settle e _ _ => if d = e then (match s.result e with | some (.ok l) => some l | _ => s.leaseSet d) else s.leaseSet d
      | _ => s.leaseSet d := by
  cases o with
  | tick t => rfl
  | query e => exact leaseSet_query s d e
  | send st enc r ok =>
    show (s.send chk st enc r ok).leaseSet d = _
    unfold State.send
    split
    · exact leaseSet_sendInner chk s st _ r ok d
    · rfl
  | sessionSend e m r ok => exact leaseSet_sendInner chk s (.any e) m r ok d
  | sessionEnd e => rfl
  | receive l =>
    refine Eq.trans ?_ (leaseSet_cloves chk d l s)
    show (s.receive chk l).leaseSet d = _
    unfold State.leaseSet
    rw [(receive_rest chk s l).2.2.2]
  | attempt e b => rfl
  | answer e r => rfl
  | settle e rnd ok =>
    show (s.settle chk e rnd ok).leaseSet d = if d = e then (match s.result e with | some (.ok l) => some l | _ => s.leaseSet d) else s.leaseSet d
    unfold State.settle
    split
    · rename_i h; simp only [h, ite_self]
    · rename_i h; simp only [h, ite_self]; rfl
    · rename_i h
      simp only [h]
      show (State.found ..).leaseSet d = _
      rw [leaseSet_found]
      rfl
  | serve =>
    show s.serve.leaseSet d = _
    unfold State.serve
    dsimp only
    split
    · exact leaseSet_query _ _ _
    · rfl
  | path o => show (s.step chk (.path o)).leaseSet d = _; unfold State.step; dsimp only; split <;> rfl
  | prune =>
    show (AMap.get (s.remotes.map fun x => (x.1, { x.2 with expiring := x.2.expiring.keep fun _ l => decide (l.expires > s.now) })) d).map Ctx.ls = (s.remotes.get d).map Ctx.ls
    unfold AMap.get
    rw [List.find?_map, Option.map_map, Option.map_map]
    have : ((fun x : Nat × Ctx => decide (x.1 = d)) ∘ fun x : Nat × Ctx => (x.1, { x.2 with expiring := x.2.expiring.keep fun _ l => decide (l.expires > s.now) }))
        = fun x => decide (x.1 = d) := rfl
    rw [this, Option.map_map]
    rfl

/-- Once a lease set of a remote is known, asking for it never panics again. -/
theorem C150_known (chk : Bool) (s : State) (d : Nat) (h : s.leaseSet d ≠ none) (ops : List Op) : (s.run chk ops).leaseSet d ≠ none := by
  refine run_inv (P := fun s => s.leaseSet d ≠ none) ?_ ops s h
  intro s o h
  rw [C150_latest]
  split
  · cases (setsOf d _).getLast? with
    | none => exact h
    | some x => simp
  · split
    · split
      · simp
      · exact h
    · exact h
  · exact h

/-! ## Sending -/

/-- What `send_message` does with a message that the session manager can encrypt. If no lease set of the remote was ever known, the call fails. If the
lease set has expired, the message waits and a query for the remote is running afterwards. Otherwise the message goes, with eight seconds to live, to a
tunnel of the remote's current lease set and to the gateway router of that very tunnel; or, if the caller gives a route, through the outbound tunnel of
the route to the inbound tunnel of the route. The latter fails silently if the route's tunnel is neither in the current lease set nor among those kept from
earlier ones. -/
theorem C150_send (chk : Bool) (s : State) (st : Style) (m : Bytes) (rnd : Nat) (ok : Bool) :
    (s.leaseSet st.dest = none → (s.step chk (.send st (some m) rnd ok)).log = s.log ++ [.ret .invalidState])
      ∧ (∀ l, s.leaseSet st.dest = some l → ¬ Valid l s.now → (s.step chk (.send st (some m) rnd ok)).log = s.log ++ [.ret .ok]
          ∧ waiting (s.step chk (.send st (some m) rnd ok)) st.dest = waiting s st.dest ++ [m] ∧ (s.step chk (.send st (some m) rnd ok)).status st.dest = .pending)
      ∧ (∀ l, s.leaseSet st.dest = some l → Valid l s.now → ok = true → ∃ o, (s.step chk (.send st (some m) rnd ok)).log = s.log ++ [o, .ret .ok] ∧ match st with
          | .any d => ∃ x ∈ l.leases, o = .sent d m (s.now + 8 * 1000000000) x.router x.tunnel none
          | .via d i b => (∃ r, o = .sent d m (s.now + 8 * 1000000000) r i (some b)) ∨ o = .lost d m ∧ ∀ x ∈ l.leases, x.tunnel ≠ i) := by
  refine ⟨?_, ?_, ?_⟩
  · intro h
    have hg : s.remotes.get st.dest = none := Option.map_eq_none_iff.mp h
    show (s.send chk st (some m) rnd ok).log = _
    unfold State.send State.sendInner
    rw [hg]
    rfl
  · intro l h hv
    obtain ⟨c, hc, rfl⟩ := Option.map_eq_some_iff.mp h
    have he : c.ls.expired s.now = true := (expired_true _ _).mpr hv
    have hs : s.step chk (.send st (some m) rnd ok) = (s.hold st.dest c m).out (.ret .ok) := by
      show s.send chk st (some m) rnd ok = _
      unfold State.send State.sendInner
      rw [hc]
      simp only [he, if_true]
    rw [hs]
    refine ⟨?_, ?_, ?_⟩
    · show (State.query ..).log ++ [_] = _
      rw [query_log]
    · unfold waiting
      show (match (State.query _ st.dest).remotes.get st.dest with | some c => c.held | none => []) = _
      rw [query_remotes]
      show (match (s.remotes.put st.dest _).get st.dest with | some c => c.held | none => []) = _
      rw [AMap.get_put, if_pos rfl, hc]
    · have hr : ({ s with remotes := s.remotes.put st.dest { c with held := c.held ++ [m] } } : State).reachable st.dest = false := by
        unfold State.reachable
        show (match (s.remotes.put st.dest _).get st.dest with | some c => !c.ls.expired s.now | none => false) = false
        rw [AMap.get_put, if_pos rfl]
        show (!c.ls.expired s.now) = false
        rw [he]; rfl
      unfold State.status
      rw [if_pos]
      show st.dest ∈ (State.query _ st.dest).pending
      rw [State.query_eq]
      split
      · exact List.mem_append_right _ (List.mem_singleton.mpr rfl)
      · rename_i hn
        unfold State.status at hn
        rw [hr] at hn
        split at hn
        · assumption
        · exact absurd rfl hn
  · intro l h hv hok
    subst hok
    obtain ⟨c, hc, rfl⟩ := Option.map_eq_some_iff.mp h
    have he : c.ls.expired s.now = false := (expired_iff _ _).mpr hv
    have hs : s.step chk (.send st (some m) rnd true) = (s.deliver chk c st m rnd true).out (.ret .ok) := by
      show s.send chk st (some m) rnd true = _
      unfold State.send State.sendInner
      rw [hc]
      simp only [he, Bool.false_eq_true, if_false]
    rw [hs]
    cases st with
    | any d =>
      obtain ⟨x, hx, e⟩ := pick_some hv rnd
      refine ⟨.sent d m (s.now + 8 * 1000000000) x.router x.tunnel none, ?_, x, hx, rfl⟩
      show (s.deliver chk c (.any d) m rnd true).log ++ [_] = _
      unfold State.deliver
      dsimp only
      rw [e]
      show s.log ++ [_] ++ [_] = _
      simp [msgLife]
    | via d i b =>
      cases e : c.lease i with
      | some x =>
        refine ⟨.sent d m (s.now + 8 * 1000000000) x.router i (some b), ?_, .inl ⟨_, rfl⟩⟩
        show (s.deliver chk c (.via d i b) m rnd true).log ++ [_] = _
        unfold State.deliver
        dsimp only
        rw [e]
        show s.log ++ [_] ++ [_] = _
        simp [msgLife]
      | none =>
        refine ⟨.lost d m, ?_, .inr ⟨rfl, ?_⟩⟩
        · show (s.deliver chk c (.via d i b) m rnd true).log ++ [_] = _
          unfold State.deliver
          dsimp only
          rw [e]
          show s.log ++ [_] ++ [_] = _
          simp
        · intro x hx hi
          unfold Ctx.lease at e
          have : c.ls.leases.find? (fun y => decide (y.tunnel = i)) ≠ none := by
            intro hf
            have := List.find?_eq_none.mp hf x hx
            simp [hi] at this
          split at e
          · cases e
          · contradiction

/-- The leases that a state holds for a remote were announced, and so were the destinations of what it has sent. -/
structure Honest (A : Nat → Lease → Prop) (s : State) : Prop where
  current : ∀ d c, s.remotes.get d = some c → ∀ x ∈ c.ls.leases, A d x
  kept : ∀ d c, s.remotes.get d = some c → ∀ p ∈ c.expiring, A d p.2 ∧ p.2.tunnel = p.1
  results : ∀ f ∈ s.futures, ∀ l, f.phase = .done (.ok l) → ∀ x ∈ l.leases, A f.dest x
  sent : ∀ d m e r t o, Out.sent d m e r t o ∈ s.log → ∃ x, A d x ∧ x.router = r ∧ x.tunnel = t

theorem Honest.of {A : Nat → Lease → Prop} {s s' : State} (h : Honest A s) (hr : s'.remotes = s.remotes) (hf : s'.futures = s.futures)
    (hl : Logs (fun o => ∀ d m e r t b, o = .sent d m e r t b → ∃ x, A d x ∧ x.router = r ∧ x.tunnel = t) s s') : Honest A s' := by
  obtain ⟨k, hk, hc⟩ := hl
  refine ⟨fun d c => ?_, fun d c => ?_, ?_, ?_⟩
  · rw [hr]; exact h.current d c
  · rw [hr]; exact h.kept d c
  · rw [hf]; exact h.results
  · intro d m e r t o ho
    rw [hk] at ho
    rcases List.mem_append.mp ho with ho | ho
    · exact h.sent d m e r t o ho
    · exact hc _ ho d m e r t o rfl

theorem honest_query {A : Nat → Lease → Prop} {s : State} (h : Honest A s) (d : Nat) : Honest A (s.query d) := by
  rw [State.query_eq]
  split
  · refine ⟨h.current, h.kept, ?_, h.sent⟩
    intro f hf l e
    rcases List.mem_append.mp hf with hf | hf
    · exact h.results f hf l e
    · rw [List.mem_singleton.mp hf] at e; cases e
  · exact h

theorem lease_ok {A : Nat → Lease → Prop} {s : State} (h : Honest A s) {d : Nat} {c : Ctx} (hc : s.remotes.get d = some c) {i : Nat} {x : Lease} (hx : c.lease i = some x) :
    A d x ∧ x.tunnel = i := by
  unfold Ctx.lease at hx
  split at hx
  · rename_i y hy
    have := List.find?_some hy
    simp only [decide_eq_true_eq] at this
    injection hx with hx
    subst hx
    exact ⟨h.current d c hc _ (List.mem_of_find?_eq_some hy), this⟩
  · exact h.kept d c hc _ (AMap.get_mem hx)

theorem honest_deliver {A : Nat → Lease → Prop} {chk : Bool} {s : State} (h : Honest A s) {c : Ctx} (st : Style) (hc : s.remotes.get st.dest = some c) (m : Bytes) (r : Nat) (ok : Bool) :
    Honest A (s.deliver chk c st m r ok) := by
  obtain ⟨_, hf, hr, _, _⟩ := deliver_rest chk s c st m r ok
  refine h.of hr hf ?_
  unfold State.deliver
  cases st with
  | via d i b =>
    dsimp only
    split
    · rename_i x hx
      obtain ⟨ha, ht⟩ := lease_ok h hc hx
      unfold State.give
      split
      · refine .one rfl ?_
        intro d' m' e' r' t' b' e
        injection e with e1 e2 e3 e4 e5 e6
        exact ⟨x, e1 ▸ ha, e4, ht.trans e5⟩
      · exact .one rfl fun _ _ _ _ _ _ e => by cases e
    · exact .one rfl fun _ _ _ _ _ _ e => by cases e
  | any d =>
    dsimp only
    split
    · rename_i x hx
      have ha := h.current d c hc x (List.mem_of_getElem? hx)
      unfold State.give
      split
      · refine .one rfl ?_
        intro d' m' e' r' t' b' e
        injection e with e1 e2 e3 e4 e5 e6
        exact ⟨x, e1 ▸ ha, e4, e5⟩
      · exact .one rfl fun _ _ _ _ _ _ e => by cases e
    · exact .same rfl

theorem Honest.set {A : Nat → Lease → Prop} {s : State} (h : Honest A s) (d : Nat) (c : Ctx) (h1 : ∀ x ∈ c.ls.leases, A d x) (h2 : ∀ p ∈ c.expiring, A d p.2 ∧ p.2.tunnel = p.1) :
    Honest A { s with remotes := s.remotes.put d c } := by
  refine ⟨?_, ?_, h.results, h.sent⟩
  · intro e c' hc'
    rw [AMap.get_put] at hc'
    split at hc'
    · rename_i he; cases hc'; subst he; exact h1
    · exact h.current e c' hc'
  · intro e c' hc'
    rw [AMap.get_put] at hc'
    split at hc'
    · rename_i he; cases hc'; subst he; exact h2
    · exact h.kept e c' hc'

theorem honest_sendInner {A : Nat → Lease → Prop} {chk : Bool} {s : State} (h : Honest A s) (st : Style) (m : Bytes) (r : Nat) (ok : Bool) : Honest A (s.sendInner chk st m r ok).1 := by
  unfold State.sendInner
  split
  · exact h.of rfl rfl (.same rfl)
  · rename_i c hc
    split
    · unfold State.hold
      exact honest_query (h.set st.dest { c with held := c.held ++ [m] } (h.current _ c hc) (h.kept _ c hc)) _
    · exact honest_deliver h st hc m r ok

theorem honest_flush {A : Nat → Lease → Prop} {chk : Bool} {d : Nat} (l : List Bytes) : ∀ {s : State} (i : Nat) (rnd : Nat → Nat) (ok : Nat → Bool), Honest A s →
    Honest A (State.flush chk d s i rnd ok l) := by
  induction l with
  | nil => intro s i rnd ok h; exact h
  | cons m l ih => intro s i rnd ok h; exact ih _ _ _ (honest_sendInner h _ _ _ _)

theorem honest_found {A : Nat → Lease → Prop} {chk : Bool} {s : State} (h : Honest A s) (d : Nat) (l : LSet) (hl : ∀ x ∈ l.leases, A d x) (rnd : Nat → Nat) (ok : Nat → Bool) :
    Honest A (s.found chk d l rnd ok) := by
  unfold State.found
  split
  · rename_i c hc
    exact honest_flush _ _ _ _ (h.set d { c with ls := l, held := [] } hl (h.kept _ c hc))
  · exact h.set d _ hl (fun p e => by cases e)

theorem mem_puts {α β : Type} [DecidableEq α] (l : List (α × β)) : ∀ {m : AMap α β} {p : α × β}, p ∈ m.puts l → p ∈ l ∨ p ∈ m := by
  induction l with
  | nil => intro m p h; exact .inr h
  | cons x l ih =>
    intro m p h
    rcases ih (m := m.put x.1 x.2) h with h | h
    · exact .inl (List.mem_cons_of_mem _ h)
    · rcases List.mem_cons.mp h with h | h
      · exact .inl (h ▸ List.mem_cons_self)
      · exact .inr (List.mem_filter.mp h).1

theorem honest_learn {A : Nat → Lease → Prop} {s : State} (h : Honest A s) (l : LSet) (hl : ∀ x ∈ l.leases, A l.dest x) : Honest A (s.learn l) := by
  unfold State.learn
  refine h.set l.dest _ ?_ ?_
  · cases s.remotes.get l.dest <;> exact hl
  · cases hc : s.remotes.get l.dest with
    | none => intro p e; cases e
    | some c =>
      intro p hp
      rcases mem_puts _ hp with hp | hp
      · obtain ⟨z, hz, rfl⟩ := List.mem_map.mp hp
        exact ⟨h.current _ _ hc z hz, rfl⟩
      · exact h.kept _ _ hc p hp

theorem honest_cloves {A : Nat → Lease → Prop} {chk : Bool} (l : List Clove) : ∀ {s : State}, Honest A s → (∀ ls, Clove.store ls ∈ l → ∀ x ∈ ls.leases, A ls.dest x) →
    Honest A (s.cloves chk l).1 := by
  induction l with
  | nil => intro s h _; exact h
  | cons c l ih =>
    intro s h hl
    refine ih ?_ fun ls hm => hl ls (List.mem_cons_of_mem _ hm)
    cases c with
    | store ls =>
      unfold State.clove
      dsimp only
      split
      · exact h
      · exact honest_learn (h.of (s' := { s with paths := s.paths.register s.now ls.dest (some ls.routes) }) rfl rfl (.same rfl)) ls (hl ls List.mem_cons_self)
    | data b => unfold State.clove; dsimp only; split <;> exact h.of rfl rfl (.same rfl)
    | other => exact h

theorem mem_result {s : State} {d : Nat} {r : Except QErr LSet} (h : s.result d = some r) : ∃ f ∈ s.futures, f.dest = d ∧ f.phase = .done r := by
  unfold State.result at h
  obtain ⟨f, hf, e⟩ := List.exists_of_findSome?_eq_some h
  split at e
  · rename_i hd
    refine ⟨f, hf, hd, ?_⟩
    revert e
    cases f.phase <;> simp [Phase.result]
  · cases e

theorem honest_step {A : Nat → Lease → Prop} {chk : Bool} {s : State} (h : Honest A s) (o : Op) (ho : ∀ d x, Announced [o] d x → A d x) : Honest A (s.step chk o) := by
  cases o with
  | tick t => exact h.of rfl rfl (.same rfl)
  | query d => exact (honest_query h d).of rfl rfl (.one rfl fun _ _ _ _ _ _ e => by cases e)
  | send st enc r ok =>
    show Honest A (s.send chk st enc r ok)
    unfold State.send
    split
    · exact (honest_sendInner (chk := chk) h st _ r ok).of rfl rfl (.one rfl fun _ _ _ _ _ _ e => by cases e)
    · exact h.of rfl rfl (.one rfl fun _ _ _ _ _ _ e => by cases e)
  | sessionSend d m r ok => exact honest_sendInner h _ _ _ _
  | sessionEnd d => exact h.of rfl rfl (.one rfl fun _ _ _ _ _ _ e => by cases e)
  | receive l =>
    show Honest A (s.receive chk l)
    have := honest_cloves (chk := chk) l h fun ls hm x hx => ho ls.dest x (.inl ⟨l, List.mem_singleton.mpr rfl, ls, hm, rfl, hx⟩)
    unfold State.receive
    dsimp only
    split
    · exact this
    · exact this.of rfl rfl (.one rfl fun _ _ _ _ _ _ e => by cases e)
  | attempt d b =>
    refine ⟨h.current, h.kept, ?_, h.sent⟩
    intro f hf l e
    obtain ⟨f', hf', rfl⟩ := List.mem_map.mp hf
    split at e
    · rw [if_pos (by assumption), attempt_dest]
      have e : (f'.attempt b).phase = .done (.ok l) := e
      unfold Fut.attempt at e
      split at e
      · split at e
        · cases e
        · split at e <;> cases e
      · exact h.results f' hf' l e
    · rw [if_neg (by assumption)]
      exact h.results f' hf' l e
  | answer d r =>
    refine ⟨h.current, h.kept, ?_, h.sent⟩
    intro f hf l e
    obtain ⟨f', hf', rfl⟩ := List.mem_map.mp hf
    split at e
    · rename_i hd
      rw [if_pos hd, answer_dest]
      have e : (f'.answer r).phase = .done (.ok l) := e
      unfold Fut.answer at e
      split at e
      · injection e with e
        cases r with
        | none => cases e
        | some r =>
          have e : r = .ok l := e
          subst e
          intro x hx
          exact hd ▸ ho d x (.inr ⟨l, List.mem_singleton.mpr rfl, hx⟩)
      · exact h.results f' hf' l e
    · rw [if_neg (by assumption)]
      exact h.results f' hf' l e
  | settle d rnd ok =>
    have hov : ∀ r, Honest A (s.over d r) := by
      intro r
      exact ⟨h.current, h.kept, fun f hf => h.results f (List.mem_filter.mp hf).1, h.sent⟩
    show Honest A (s.settle chk d rnd ok)
    unfold State.settle
    split
    · exact h
    · exact (hov _).of rfl rfl (.one rfl fun _ _ _ _ _ _ e => by cases e)
    · rename_i l hl
      obtain ⟨f, hf, hd, hp⟩ := mem_result hl
      have h1 : Honest A ((s.over d (.ok l)).out (.remote d l.key)) := (hov _).of rfl rfl (.one rfl fun _ _ _ _ _ _ e => by cases e)
      exact (honest_found (chk := chk) h1 d l (hd ▸ h.results f hf l hp) rnd ok).of rfl rfl (.one rfl fun _ _ _ _ _ _ e => by cases e)
  | serve =>
    show Honest A s.serve
    unfold State.serve
    dsimp only
    split
    · exact honest_query (h.of (s' := { s with paths := s.paths.serve.2 }) rfl rfl (.same rfl)) _
    · exact h.of rfl rfl (.same rfl)
  | path o => show Honest A (s.step chk (.path o)); unfold State.step; dsimp only; split <;> exact h.of rfl rfl (.same rfl)
  | prune =>
    have hg : ∀ d c, s.prune.remotes.get d = some c → ∃ c', s.remotes.get d = some c' ∧ c.ls = c'.ls ∧ c.expiring = c'.expiring.keep fun _ l => decide (l.expires > s.now) := by
      intro d c hc
      have hc : ((s.remotes.map fun x => (x.1, { x.2 with expiring := x.2.expiring.keep fun _ l => decide (l.expires > s.now) })).find? (·.1 = d)).map (·.2) = some c := hc
      rw [List.find?_map, Option.map_map] at hc
      obtain ⟨y, hy, e⟩ := Option.map_eq_some_iff.mp hc
      refine ⟨y.2, ?_, ?_, ?_⟩
      · show (s.remotes.find? (·.1 = d)).map (·.2) = _
        have hy : s.remotes.find? (fun x => decide (x.1 = d)) = some y := hy
        rw [hy]; rfl
      · rw [← e]; rfl
      · rw [← e]; rfl
    refine ⟨?_, ?_, h.results, h.sent⟩
    · intro d c hc
      obtain ⟨c', hc', e, _⟩ := hg d c hc
      rw [e]; exact h.current d c' hc'
    · intro d c hc p hp
      obtain ⟨c', hc', _, e⟩ := hg d c hc
      rw [e] at hp
      exact h.kept d c' hc' p (List.mem_filter.mp hp).1

/-- Messages for a remote go only to tunnels that were announced for it: every message that leaves for `d` goes to a gateway router and tunnel that stand
together in a lease signed by `d` that came in a message, or in the answer of the database to a query for `d`. -/
theorem C150_announced (chk : Bool) (t : Duration) (out : List Nat) (ops : List Op) (d : Nat) (m : Bytes) (e : Duration) (r i : Nat) (o : Option Nat)
    (h : Out.sent d m e r i o ∈ (after chk t out ops).log) : ∃ x, Announced ops d x ∧ x.router = r ∧ x.tunnel = i := by
  have key : ∀ (l : List Op) (s : State), (∀ o ∈ l, o ∈ ops) → Honest (Announced ops) s → Honest (Announced ops) (s.run chk l) := by
    intro l
    induction l with
    | nil => intro s _ h; exact h
    | cons o l ih =>
      intro s hl hs
      refine ih _ (fun x hx => hl x (List.mem_cons_of_mem _ hx)) (honest_step hs o ?_)
      have ho := hl o List.mem_cons_self
      intro d x hx
      rcases hx with ⟨l, h1, h2⟩ | ⟨ls, h1, h2⟩
      · exact .inl ⟨l, List.mem_singleton.mp h1 ▸ ho, h2⟩
      · exact .inr ⟨ls, List.mem_singleton.mp h1 ▸ ho, h2⟩
  have h0 : Honest (Announced ops) (State.init t out) := ⟨(fun _ _ e => nomatch e), (fun _ _ e => nomatch e), (fun _ e => (List.not_mem_nil e).elim), (fun _ _ _ _ _ _ e => (List.not_mem_nil e).elim)⟩
  exact (key ops _ (fun _ h => h) h0).sent d m e r i o h

end Emissary.Dest
