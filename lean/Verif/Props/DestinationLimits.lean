import Verif.Props.DestinationHold
/-!
# C151 to C155: messages that wait for a lease set, replaced lease sets, routes, received messages, and requests of routing paths
-/
namespace Emissary.Dest
open Emissary.I2np (Duration)

/-- A lease set of `d` is known and can be used. -/
def Usable (s : State) (d : Nat) : Prop := ∃ l, s.leaseSet d = some l ∧ Valid l s.now

theorem usable_iff (s : State) (d : Nat) : s.reachable d = true ↔ Usable s d := reachable_iff s d

theorem usable_of {s s' : State} {d : Nat} (h : Usable s d) (h1 : s'.leaseSet d = s.leaseSet d) (h2 : s'.now = s.now) : Usable s' d := by
  obtain ⟨l, e, hv⟩ := h
  exact ⟨l, h1.trans e, h2 ▸ hv⟩

theorem receive_store (chk : Bool) (s : State) (l : LSet) (hl : l.leases ≠ []) :
    s.step chk (.receive [.store l]) = { s with paths := s.paths.register s.now l.dest (some l.routes) }.learn l := by
  have e : s.cloves chk [.store l] = ({ s with paths := s.paths.register s.now l.dest (some l.routes) }.learn l, []) := by
    show ((s.clove chk (.store l)).1, (s.clove chk (.store l)).2.toList ++ []) = _
    unfold State.clove
    dsimp only
    rw [if_neg hl]
    rfl
  show s.receive chk [.store l] = _
  unfold State.receive
  rw [e]
  rfl

/-! ## C151: what goes wrong -/

/-- C151 does not hold for the order of messages: when a remote sends its new lease set itself, the messages that wait for one are left waiting, and messages that are
handed over later leave before them. -/
theorem C151_overtaken_violated (chk : Bool) (s : State) (d : Nat) (l : LSet) (m : Bytes) (rnd : Nat) (hd : l.dest = d) (hv : Valid l s.now) (_ : waiting s d ≠ []) :
    let s' := s.run chk [.receive [.store l], .send (.any d) (some m) rnd true]
    (∃ e r i, s'.log = s.log ++ [.sent d m e r i none, .ret .ok]) ∧ waiting s' d = waiting s d := by
  intro s'
  have hl : l.leases ≠ [] := by
    obtain ⟨_, x, hx, _⟩ := hv
    exact List.ne_nil_of_mem hx
  let s1 := s.step chk (.receive [.store l])
  have e1 : s1 = { s with paths := s.paths.register s.now l.dest (some l.routes) }.learn l := receive_store chk s l hl
  have hls : s1.leaseSet d = some l := by
    rw [e1, leaseSet_learn, if_pos hd.symm]
  have hn : s1.now = s.now := by rw [e1]; rfl
  have hlog : s1.log = s.log := by rw [e1]; rfl
  have hw : waiting s1 d = waiting s d := by
    rw [e1, waiting_learn]; rfl
  obtain ⟨o, ho, x, hx, rfl⟩ := (C150_send chk s1 (.any d) m rnd true).2.2 l hls (hn ▸ hv) rfl
  refine ⟨⟨_, _, _, ho.trans (by rw [hlog])⟩, ?_⟩
  obtain ⟨c, hc, hcl⟩ := Option.map_eq_some_iff.mp hls
  have he : c.ls.expired s1.now = false := by rw [hcl]; exact (expired_iff _ _).mpr (hn ▸ hv)
  have hs : s' = (s1.deliver chk c (.any d) m rnd true).out (.ret .ok) := by
    show s1.send chk (.any d) (some m) rnd true = _
    unfold State.send State.sendInner
    show _ = _
    rw [show s1.remotes.get (Style.any d).dest = some c from hc]
    simp only [he, Bool.false_eq_true, if_false]
  rw [hs]
  refine (waiting_of (s := s1) ?_ d).trans hw
  exact (deliver_rest chk s1 c (.any d) m rnd true).2.2.1

/-- No query for `d` runs. -/
structure Idle (d : Nat) (s : State) : Prop where
  tied : s.tied
  idle : d ∉ s.pending

theorem idle_query {d : Nat} {s : State} (h : Idle d s) (hu : Usable s d) (e : Nat) : Idle d (s.query e) := by
  refine ⟨tied_query h.tied e, ?_⟩
  rw [State.query_eq]
  split
  · rename_i hs
    intro hm
    rcases List.mem_append.mp hm with hm | hm
    · exact h.idle hm
    · have := List.mem_singleton.mp hm
      subst this
      unfold State.status at hs
      rw [if_neg h.idle, if_pos ((usable_iff _ _).mpr hu)] at hs
      cases hs
  · exact h.idle

theorem idle_of {d : Nat} {s s' : State} (h : Idle d s) (hp : s'.pending = s.pending) (hf : s'.futures = s.futures) : Idle d s' :=
  ⟨tied_of h.tied hp hf, hp ▸ h.idle⟩

theorem now_sendInner (chk : Bool) (s : State) (st : Style) (m : Bytes) (r : Nat) (ok : Bool) : (s.sendInner chk st m r ok).1.now = s.now := by
  unfold State.sendInner
  split
  · rfl
  · split
    · exact query_now _ _
    · exact (deliver_rest chk s _ st m r ok).2.2.2.2

theorem idle_sendInner {d : Nat} {chk : Bool} {s : State} (h : Idle d s) (hu : Usable s d) (st : Style) (m : Bytes) (r : Nat) (ok : Bool) :
    Idle d (s.sendInner chk st m r ok).1 ∧ waiting (s.sendInner chk st m r ok).1 d = waiting s d := by
  unfold State.sendInner
  split
  · exact ⟨idle_of h rfl rfl, rfl⟩
  · rename_i c hc
    split
    · rename_i he
      have hne : d ≠ st.dest := by
        intro e
        obtain ⟨l, hl, hv⟩ := hu
        unfold State.leaseSet at hl
        rw [e, hc] at hl
        injection hl with hl
        rw [show c.ls = l from hl, (expired_iff _ _).mpr hv] at he
        cases he
      refine ⟨?_, ?_⟩
      · unfold State.hold
        refine idle_query (s := { s with remotes := s.remotes.put st.dest { c with held := c.held ++ [m] } }) (idle_of (s := s) h rfl rfl) (usable_of (s := s) hu ?_ rfl) _
        show ((s.remotes.put st.dest _).get d).map Ctx.ls = _
        rw [AMap.get_put, if_neg hne]
        rfl
      · unfold State.hold
        rw [waiting_of (query_remotes _ _), waiting_put, if_neg hne]
    · have := deliver_rest chk s c st m r ok
      exact ⟨idle_of h this.1 this.2.1, waiting_of this.2.2.1 d⟩

theorem idle_flush {d e : Nat} {chk : Bool} (l : List Bytes) : ∀ {s : State} (i : Nat) (rnd : Nat → Nat) (ok : Nat → Bool), Idle d s → Usable s d →
    Idle d (State.flush chk e s i rnd ok l) ∧ waiting (State.flush chk e s i rnd ok l) d = waiting s d := by
  induction l with
  | nil => intro s i rnd ok h _; exact ⟨h, rfl⟩
  | cons m l ih =>
    intro s i rnd ok h hu
    obtain ⟨h1, h2⟩ := idle_sendInner (chk := chk) h hu (.any e) m (rnd i) (ok i)
    obtain ⟨h3, h4⟩ := ih (i + 1) rnd ok h1 (usable_of hu (leaseSet_sendInner ..) (now_sendInner ..))
    exact ⟨h3, h4.trans h2⟩

theorem idle_step {d : Nat} {chk : Bool} {s : State} (h : Idle d s) (hu : Usable s d) (o : Op) : Idle d (s.step chk o) ∧ waiting (s.step chk o) d = waiting s d := by
  cases o with
  | tick t => exact ⟨idle_of h rfl rfl, rfl⟩
  | query e => exact ⟨idle_of (idle_query h hu e) rfl rfl, waiting_of (query_remotes s e) d⟩
  | send st enc r ok =>
    show Idle d (s.send chk st enc r ok) ∧ waiting (s.send chk st enc r ok) d = _
    unfold State.send
    cases enc with
    | some m =>
      obtain ⟨h1, h2⟩ := idle_sendInner (chk := chk) h hu st m r ok
      exact ⟨idle_of h1 rfl rfl, h2⟩
    | none => exact ⟨idle_of h rfl rfl, rfl⟩
  | sessionSend e m r ok => exact idle_sendInner h hu (.any e) m r ok
  | sessionEnd e => exact ⟨idle_of h rfl rfl, rfl⟩
  | receive l =>
    obtain ⟨a, b, _, f⟩ := receive_rest chk s l
    exact ⟨idle_of h a b, (waiting_of f d).trans (waiting_cloves chk d l s)⟩
  | attempt e b => exact ⟨⟨tied_onQuery h.tied e _ fun f => attempt_dest f b, h.idle⟩, rfl⟩
  | answer e r => exact ⟨⟨tied_onQuery h.tied e _ fun f => answer_dest f r, h.idle⟩, rfl⟩
  | settle e rnd ok =>
    by_cases hde : e = d
    · have hr : s.result e = none := by
        cases hr : s.result e with
        | none => rfl
        | some r =>
          obtain ⟨f, hf, hd, _⟩ := mem_result hr
          refine absurd ?_ h.idle
          rw [h.tied.1]
          exact List.mem_map.mpr ⟨f, hf, hd.trans hde⟩
      have hs : s.step chk (.settle e rnd ok) = s := (C149_outcome chk s e rnd ok).2.2 hr
      rw [hs]
      exact ⟨h, rfl⟩
    refine ⟨⟨tied_settle h.tied e rnd ok, ?_⟩, ?_⟩
    · show d ∉ (s.settle chk e rnd ok).pending
      have hk : d ∉ s.pending.filter fun x => decide (x ≠ e) := fun hm => h.idle (List.mem_filter.mp hm).1
      unfold State.settle
      split
      · exact h.idle
      · exact hk
      · rename_i l _
        show d ∉ (State.found ..).pending
        unfold State.found
        have ho : Idle d ((s.over e (.ok l)).out (.remote e l.key)) := ⟨tied_of (tied_over h.tied e (.ok l)) rfl rfl, hk⟩
        split
        · rename_i c hc
          refine (idle_flush (s := { (s.over e (.ok l)).out (.remote e l.key) with remotes := s.remotes.put e { c with ls := l, held := [] } }) _ _ _ _ (idle_of ho rfl rfl) (usable_of (s := s) hu ?_ rfl)).1.idle
          show ((s.remotes.put e _).get d).map Ctx.ls = _
          rw [AMap.get_put, if_neg (Ne.symm hde)]
          rfl
        · exact hk
    · show waiting (s.settle chk e rnd ok) d = _
      have hk : d ∉ s.pending.filter fun x => decide (x ≠ e) := fun hm => h.idle (List.mem_filter.mp hm).1
      unfold State.settle
      split
      · rfl
      · rfl
      · rename_i l _
        show waiting (State.found ..) d = _
        unfold State.found
        have ho : Idle d ((s.over e (.ok l)).out (.remote e l.key)) := ⟨tied_of (tied_over h.tied e (.ok l)) rfl rfl, hk⟩
        split
        · rename_i c hc
          refine (idle_flush (s := { (s.over e (.ok l)).out (.remote e l.key) with remotes := s.remotes.put e { c with ls := l, held := [] } }) _ _ _ _ (idle_of ho rfl rfl) (usable_of (s := s) hu ?_ rfl)).2.trans ?_
          · show ((s.remotes.put e _).get d).map Ctx.ls = _
            rw [AMap.get_put, if_neg (Ne.symm hde)]
            rfl
          · exact (waiting_put s e d _).trans (if_neg (Ne.symm hde))
        · exact (waiting_put s e d _).trans (if_neg (Ne.symm hde))
  | serve =>
    show Idle d s.serve ∧ waiting s.serve d = _
    unfold State.serve
    dsimp only
    split
    · exact ⟨idle_query (s := { s with paths := s.paths.serve.2 }) (idle_of (s := s) h rfl rfl) (usable_of (s := s) hu rfl rfl) _, waiting_of (query_remotes _ _) d⟩
    · exact ⟨idle_of h rfl rfl, rfl⟩
  | path o =>
    show Idle d (s.step chk (.path o)) ∧ waiting (s.step chk (.path o)) d = _
    unfold State.step
    dsimp only
    split
    · exact ⟨idle_of h rfl rfl, rfl⟩
    · exact ⟨h, rfl⟩
  | prune => exact ⟨idle_of h rfl rfl, waiting_prune s d⟩

/-- C151 does not hold for the end of the wait: once the query for a remote has failed, messages that wait stay where they are for as long as the remote is
reachable, whatever else happens. (The remote becomes reachable by sending its lease set; nothing sends the waiting messages then, and no new query is made.) -/
theorem C151_stuck_violated (chk : Bool) (t : Duration) (out : List Nat) (before ops : List Op) (d : Nat) (hp : (after chk t out before).status d = .found)
    (hu : ∀ a b, ops = a ++ b → Usable ((after chk t out before).run chk a) d) :
    waiting ((after chk t out before).run chk ops) d = waiting (after chk t out before) d := by
  have key : ∀ (ops : List Op) (s : State), Idle d s → (∀ a b, ops = a ++ b → Usable (s.run chk a) d) → waiting (s.run chk ops) d = waiting s d := by
    intro ops
    induction ops with
    | nil => intro s _ _; rfl
    | cons o l ih =>
      intro s hi hu
      obtain ⟨h1, h2⟩ := idle_step (chk := chk) hi (hu [] (o :: l) rfl) o
      exact (ih (s.step chk o) h1 fun a b e => hu (o :: a) b (by rw [e]; rfl)).trans h2
  refine key ops _ ⟨tied_run (tied_init t out) before, ?_⟩ hu
  intro hm
  unfold State.status at hp
  rw [if_pos hm] at hp
  cases hp

/-! ## C152 -/

/-- C152, part: a message changes the lease set of a remote only to one that the remote signed and that came in that message. Partial: the lease set need not be
newer than the one it replaces or even valid, and the answer to a query need not be of the destination asked for, see the theorems below. -/
theorem C152_signed_partial (chk : Bool) (s : State) (l : List Clove) (d : Nat) (h : (s.step chk (.receive l)).leaseSet d ≠ s.leaseSet d) :
    ∃ ls, (s.step chk (.receive l)).leaseSet d = some ls ∧ ls.dest = d ∧ Clove.store ls ∈ l := by
  have e : (s.step chk (.receive l)).leaseSet d = ((setsOf d l).getLast?).or (s.leaseSet d) := C150_latest chk s (.receive l) d
  rw [e] at h ⊢
  cases hg : (setsOf d l).getLast? with
  | none => rw [hg] at h; exact absurd rfl h
  | some ls =>
    have hm := List.mem_of_getLast? hg
    obtain ⟨c, hc, hx⟩ := List.mem_filterMap.mp hm
    cases c with
    | store y =>
      dsimp only at hx
      split at hx
      · rename_i hy
        injection hx with hx
        subst hx
        exact ⟨y, rfl, hy.1, hc⟩
      · cases hx
    | data b => cases hx
    | other => cases hx

/-- C152 does not hold: a lease set that has expired replaces one that can be used, so that whoever replays an old lease set of a remote in a message of theirs
makes the remote unreachable until a query for it has ended. -/
theorem C152_stale_violated (chk : Bool) (s : State) (d : Nat) (l : LSet) (m : Bytes) (rnd : Nat) (ok : Bool) (_ : Usable s d) (hd : l.dest = d) (hl : l.leases ≠ []) (hv : ¬ Valid l s.now) :
    let s' := s.step chk (.receive [.store l])
    ¬ Usable s' d ∧ (s'.step chk (.send (.any d) (some m) rnd ok)).log = s'.log ++ [.ret .ok] ∧ waiting (s'.step chk (.send (.any d) (some m) rnd ok)) d = waiting s d ++ [m] := by
  intro s'
  have e1 : s' = { s with paths := s.paths.register s.now l.dest (some l.routes) }.learn l := receive_store chk s l hl
  have hls : s'.leaseSet d = some l := by rw [e1, leaseSet_learn, if_pos hd.symm]
  have hn : s'.now = s.now := by rw [e1]; rfl
  have hw : waiting s' d = waiting s d := by rw [e1, waiting_learn]; rfl
  have hv' : ¬ Valid l s'.now := hn ▸ hv
  refine ⟨?_, ?_⟩
  · rintro ⟨l', h1, h2⟩
    rw [hls] at h1
    injection h1 with h1
    exact hv' (h1 ▸ h2)
  · obtain ⟨h1, h2, _⟩ := (C150_send chk s' (.any d) m rnd ok).2.1 l hls hv'
    exact ⟨h1, h2.trans (by rw [← hw]; rfl)⟩

/-- C152 does not hold for answers of the database either: a lease set of another destination is taken for the one that was asked for, and messages for the
remote go to the other destination's tunnels. -/
theorem C152_foreign_violated (chk : Bool) (s : State) (d : Nat) (rnd : Nat → Nat) (ok : Nat → Bool) (l : LSet) (h : s.result d = some (.ok l)) (_ : l.dest ≠ d) :
    (s.step chk (.settle d rnd ok)).leaseSet d = some l := ((C149_outcome chk s d rnd ok).2.1 l h).2

/-! ## C153: routes -/

/-- The inbound tunnel `i` of `d` can be sent to at least until `E`. -/
structure Routed (d i : Nat) (E : Duration) (s : State) : Prop where
  have_it : ∃ c, s.remotes.get d = some c ∧ AMap.Ok c.expiring ∧ (∀ y ∈ c.ls.leases, y.tunnel = i → E ≤ y.expires)
    ∧ ((∃ y ∈ c.ls.leases, y.tunnel = i) ∨ ∃ y, c.expiring.get i = some y ∧ E ≤ y.expires)

theorem Routed.of {d i : Nat} {E : Duration} {s s' : State} (h : Routed d i E s) (hg : s'.remotes.get d = s.remotes.get d) : Routed d i E s' := ⟨hg ▸ h.have_it⟩

theorem Routed.held {d i : Nat} {E : Duration} {s : State} (h : Routed d i E s) (e : Nat) (c : Ctx) (f : Ctx → Ctx) (hc : s.remotes.get e = some c) (h1 : (f c).ls = c.ls) (h2 : (f c).expiring = c.expiring) :
    Routed d i E { s with remotes := s.remotes.put e (f c) } := by
  obtain ⟨c', hc', h3⟩ := h.have_it
  by_cases hd : d = e
  · subst hd
    rw [hc] at hc'
    injection hc' with hc'
    subst hc'
    refine ⟨⟨f c, ?_, ?_⟩⟩
    · show (s.remotes.put d _).get d = _
      rw [AMap.get_put, if_pos rfl]
    · rw [h1, h2]; exact h3
  · refine h.of ?_
    show (s.remotes.put e _).get d = _
    rw [AMap.get_put, if_neg hd]

theorem routed_sendInner {d i : Nat} {E : Duration} {chk : Bool} {s : State} (h : Routed d i E s) (st : Style) (m : Bytes) (r : Nat) (ok : Bool) : Routed d i E (s.sendInner chk st m r ok).1 := by
  unfold State.sendInner
  split
  · exact h.of rfl
  · rename_i c hc
    split
    · unfold State.hold
      refine (h.held st.dest c (fun c => { c with held := c.held ++ [m] }) hc rfl rfl).of ?_
      rw [query_remotes]
    · exact h.of (by rw [(deliver_rest chk s c st m r ok).2.2.1])

theorem routed_flush {d i e : Nat} {E : Duration} {chk : Bool} (l : List Bytes) : ∀ {s : State} (k : Nat) (rnd : Nat → Nat) (ok : Nat → Bool), Routed d i E s →
    Routed d i E (State.flush chk e s k rnd ok l) := by
  induction l with
  | nil => intro s k rnd ok h; exact h
  | cons m l ih => intro s k rnd ok h; exact ih _ _ _ (routed_sendInner h _ _ _ _)

theorem get_leases {l : List Lease} {i : Nat} : (∀ y, AMap.get (l.map fun x => (x.tunnel, x)).reverse i = some y → y ∈ l ∧ y.tunnel = i)
    ∧ ((∃ y ∈ l, y.tunnel = i) → AMap.get (l.map fun x => (x.tunnel, x)).reverse i ≠ none) := by
  constructor
  · intro y hy
    have := AMap.get_mem hy
    rw [List.mem_reverse] at this
    obtain ⟨z, hz, e⟩ := List.mem_map.mp this
    injection e with e1 e2
    subst e2
    exact ⟨hz, e1⟩
  · rintro ⟨y, hy, e⟩ hn
    unfold AMap.get at hn
    rw [Option.map_eq_none_iff, List.find?_eq_none] at hn
    refine hn (y.tunnel, y) ?_ (by simpa using e)
    rw [List.mem_reverse]
    exact List.mem_map.mpr ⟨y, hy, rfl⟩

theorem routed_learn {d i : Nat} {E : Duration} {s : State} (h : Routed d i E s) (l : LSet) (hl : l.dest = d → ∀ y ∈ l.leases, y.tunnel = i → E ≤ y.expires) : Routed d i E (s.learn l) := by
  by_cases hd : d = l.dest
  · obtain ⟨c, hc, h1, h2, h3⟩ := h.have_it
    refine ⟨⟨c.replace l, ?_, AMap.ok_puts _ h1, hl hd.symm, .inr ?_⟩⟩
    · show (s.remotes.put l.dest _).get d = _
      rw [AMap.get_put, if_pos hd, ← hd, hc]
    · show ∃ y, (c.expiring.puts (c.ls.leases.map fun x => (x.tunnel, x))).get i = some y ∧ _
      rw [AMap.get_puts]
      obtain ⟨g1, g2⟩ := get_leases (l := c.ls.leases) (i := i)
      cases hg : AMap.get (c.ls.leases.map fun x => (x.tunnel, x)).reverse i with
      | some y => exact ⟨y, rfl, h2 y (g1 y hg).1 (g1 y hg).2⟩
      | none =>
        rcases h3 with h3 | h3
        · exact absurd hg (g2 h3)
        · exact h3
  · refine h.of ?_
    show (s.remotes.put l.dest _).get d = _
    rw [AMap.get_put, if_neg hd]

theorem routed_cloves {d i : Nat} {E : Duration} {chk : Bool} (l : List Clove) : ∀ {s : State}, Routed d i E s →
    (∀ ls, Clove.store ls ∈ l → ls.dest = d → ∀ y ∈ ls.leases, y.tunnel = i → E ≤ y.expires) → Routed d i E (s.cloves chk l).1 := by
  induction l with
  | nil => intro s h _; exact h
  | cons c l ih =>
    intro s h hl
    refine ih ?_ fun ls hm => hl ls (List.mem_cons_of_mem _ hm)
    cases c with
    | store ls =>
      unfold State.clove
      dsimp only
      split
      · exact h
      · exact routed_learn (s := { s with paths := s.paths.register s.now ls.dest (some ls.routes) }) (h.of rfl) ls (hl ls List.mem_cons_self)
    | data b => unfold State.clove; dsimp only; split <;> exact h.of rfl
    | other => exact h

theorem get_prune (s : State) (d : Nat) :
    s.prune.remotes.get d = (s.remotes.get d).map fun c => { c with expiring := c.expiring.keep fun _ l => decide (l.expires > s.now) } := by
  show AMap.get (s.remotes.map fun x => (x.1, { x.2 with expiring := x.2.expiring.keep fun _ l => decide (l.expires > s.now) })) d = _
  unfold AMap.get
  rw [List.find?_map, Option.map_map, Option.map_map]
  rfl

theorem routed_step {d i : Nat} {E : Duration} {chk : Bool} {s : State} (h : Routed d i E s) (hE : s.now < E) (o : Op) (h1 : ∀ rnd ok, o ≠ .settle d rnd ok)
    (h2 : ∀ l, o = .receive l → ∀ ls, Clove.store ls ∈ l → ls.dest = d → ∀ y ∈ ls.leases, y.tunnel = i → E ≤ y.expires) : Routed d i E (s.step chk o) := by
  cases o with
  | tick t => exact h.of rfl
  | query e => exact h.of (by show (s.query e).remotes.get d = _; rw [query_remotes])
  | send st enc r ok =>
    show Routed d i E (s.send chk st enc r ok)
    unfold State.send
    split
    · exact (routed_sendInner (chk := chk) h st _ r ok).of rfl
    · exact h.of rfl
  | sessionSend e m r ok => exact routed_sendInner h _ _ _ _
  | sessionEnd e => exact h.of rfl
  | receive l =>
    refine (routed_cloves (chk := chk) l h (h2 l rfl)).of ?_
    show (s.receive chk l).remotes.get d = _
    rw [(receive_rest chk s l).2.2.2]
  | attempt e b => exact h.of rfl
  | answer e r => exact h.of rfl
  | settle e rnd ok =>
    have hde : d ≠ e := fun e' => h1 rnd ok (e' ▸ rfl)
    show Routed d i E (s.settle chk e rnd ok)
    unfold State.settle
    split
    · exact h
    · exact h.of rfl
    · refine Routed.of (s := State.found ..) ?_ rfl
      unfold State.found
      split
      · refine routed_flush _ _ _ _ (h.of ?_)
        show (s.remotes.put e _).get d = _
        rw [AMap.get_put, if_neg hde]
      · refine h.of ?_
        show (s.remotes.put e _).get d = _
        rw [AMap.get_put, if_neg hde]
  | serve =>
    show Routed d i E s.serve
    unfold State.serve
    dsimp only
    split
    · exact h.of (by rw [query_remotes])
    · exact h.of rfl
  | path o =>
    show Routed d i E (s.step chk (.path o))
    unfold State.step
    dsimp only
    split <;> exact h.of rfl
  | prune =>
    obtain ⟨c, hc, h3, h4, h5⟩ := h.have_it
    refine ⟨⟨{ c with expiring := c.expiring.keep fun _ l => decide (l.expires > s.now) }, ?_, AMap.ok_keep h3 fun _ l => decide (l.expires > s.now), h4, ?_⟩⟩
    · show s.prune.remotes.get d = _
      rw [get_prune, hc]
      rfl
    · rcases h5 with h5 | ⟨y, hy, hyE⟩
      · exact .inl h5
      · right
        refine ⟨y, ?_, hyE⟩
        show AMap.get (c.expiring.keep fun _ l => decide (l.expires > s.now)) i = _
        rw [AMap.get_keep h3, hy]
        simp only [Option.filter]
        rw [if_pos]
        exact decide_eq_true (Nat.lt_of_lt_of_le hE hyE)

theorem now_flush (chk : Bool) (e : Nat) (l : List Bytes) : ∀ (s : State) (k : Nat) (rnd : Nat → Nat) (ok : Nat → Bool), (State.flush chk e s k rnd ok l).now = s.now := by
  induction l with
  | nil => intro s k rnd ok; rfl
  | cons m l ih => intro s k rnd ok; exact (ih _ _ _ _).trans (now_sendInner ..)

theorem now_step (chk : Bool) (s : State) (o : Op) : s.now ≤ (s.step chk o).now := by
  cases o with
  | tick t => exact Nat.le_max_left _ _
  | query e => exact Nat.le_of_eq (query_now s e).symm
  | send st enc r ok =>
    show s.now ≤ (s.send chk st enc r ok).now
    unfold State.send
    split
    · exact Nat.le_of_eq (now_sendInner chk s st _ r ok).symm
    · exact Nat.le_refl _
  | sessionSend e m r ok => exact Nat.le_of_eq (now_sendInner chk s _ _ r ok).symm
  | sessionEnd e => exact Nat.le_refl _
  | receive l => exact Nat.le_of_eq (receive_rest chk s l).2.2.1.symm
  | attempt e b => exact Nat.le_refl _
  | answer e r => exact Nat.le_refl _
  | settle e rnd ok =>
    show s.now ≤ (s.settle chk e rnd ok).now
    unfold State.settle
    split
    · exact Nat.le_refl _
    · exact Nat.le_refl _
    · show s.now ≤ (State.found ..).now
      unfold State.found
      split
      · rw [now_flush]; exact Nat.le_refl _
      · exact Nat.le_refl _
  | serve =>
    show s.now ≤ s.serve.now
    unfold State.serve
    dsimp only
    split
    · rw [query_now]; exact Nat.le_refl _
    · exact Nat.le_refl _
  | path o =>
    show s.now ≤ (s.step chk (.path o)).now
    unfold State.step
    dsimp only
    split <;> exact Nat.le_refl _
  | prune => exact Nat.le_refl _

theorem now_run (chk : Bool) (ops : List Op) : ∀ s : State, s.now ≤ (s.run chk ops).now := by
  induction ops with
  | nil => intro s; exact Nat.le_refl _
  | cons o l ih => intro s; exact Nat.le_trans (now_step chk s o) (ih _)

theorem lease_routed {d i : Nat} {E : Duration} {s : State} (h : Routed d i E s) : ∃ c x, s.remotes.get d = some c ∧ c.lease i = some x := by
  obtain ⟨c, hc, _, _, h5⟩ := h.have_it
  unfold Ctx.lease
  cases hf : c.ls.leases.find? (·.tunnel = i) with
  | some x => exact ⟨c, x, hc, by simp [hf]⟩
  | none =>
    rcases h5 with ⟨y, hy, e⟩ | ⟨y, hy, _⟩
    · have := List.find?_eq_none.mp hf y hy
      simp [e] at this
    · exact ⟨c, y, hc, by simp [hf, hy]⟩

/-- C153, part: a route over a tunnel of the remote works until the lease of that tunnel expires, no matter how often the remote replaces its lease set by
sending new ones: a message sent over the route leaves through the route's outbound tunnel to the route's inbound tunnel. The leases of the same tunnel in later lease
sets must not expire earlier. Partial: a lease set that comes from the database makes the destination forget the earlier ones, see `C153_refreshed_violated`. -/
theorem C153_kept_partial (chk : Bool) (s : State) (d : Nat) (l : LSet) (x : Lease) (hs : ∃ c, s.remotes.get d = some c ∧ c.ls = l ∧ AMap.Ok c.expiring) (hx : x ∈ l.leases)
    (hsame : ∀ y ∈ l.leases, y.tunnel = x.tunnel → x.expires ≤ y.expires) (ops : List Op) (h1 : ∀ rnd ok, Op.settle d rnd ok ∉ ops)
    (h2 : ∀ k, Op.receive k ∈ ops → ∀ ls, Clove.store ls ∈ k → ls.dest = d → ∀ y ∈ ls.leases, y.tunnel = x.tunnel → x.expires ≤ y.expires)
    (hE : (s.run chk ops).now < x.expires) (hu : Usable (s.run chk ops) d) (b : Nat) (m : Bytes) (rnd : Nat) :
    ∃ e r, ((s.run chk ops).step chk (.send (.via d x.tunnel b) (some m) rnd true)).log = (s.run chk ops).log ++ [.sent d m e r x.tunnel (some b), .ret .ok] := by
  have key : ∀ (ops : List Op) (s : State), Routed d x.tunnel x.expires s → (∀ rnd ok, Op.settle d rnd ok ∉ ops) →
      (∀ k, Op.receive k ∈ ops → ∀ ls, Clove.store ls ∈ k → ls.dest = d → ∀ y ∈ ls.leases, y.tunnel = x.tunnel → x.expires ≤ y.expires) → (s.run chk ops).now < x.expires →
      Routed d x.tunnel x.expires (s.run chk ops) := by
    intro ops
    induction ops with
    | nil => intro s h _ _ _; exact h
    | cons o l ih =>
      intro s h h1 h2 hE
      have hn : s.now < x.expires := Nat.lt_of_le_of_lt (now_run chk (o :: l) s) hE
      refine ih _ (routed_step h hn o ?_ ?_) (fun rnd ok hm => h1 rnd ok (List.mem_cons_of_mem _ hm)) (fun k hk => h2 k (List.mem_cons_of_mem _ hk)) hE
      · intro rnd ok e; exact h1 rnd ok (e ▸ List.mem_cons_self)
      · intro k e; exact h2 k (e ▸ List.mem_cons_self)
  obtain ⟨c, hc, rfl, hok⟩ := hs
  have h0 : Routed d x.tunnel x.expires s := ⟨⟨c, hc, hok, hsame, .inl ⟨x, hx, rfl⟩⟩⟩
  obtain ⟨c', y, hc', hy⟩ := lease_routed (key ops s h0 h1 h2 hE)
  obtain ⟨l', hl', hv⟩ := hu
  have e : c'.ls = l' := by
    unfold State.leaseSet at hl'
    rw [hc'] at hl'
    injection hl'
  refine ⟨(s.run chk ops).now + msgLife, y.router, ?_⟩
  generalize s.run chk ops = q at *
  have e' : q.step chk (.send (.via d x.tunnel b) (some m) rnd true) = (q.out (.sent d m (q.now + msgLife) y.router x.tunnel (some b))).out (.ret .ok) := by
    show q.send chk _ (some m) rnd true = _
    unfold State.send State.sendInner
    rw [show q.remotes.get (Style.via d x.tunnel b).dest = _ from hc']
    dsimp only
    rw [e, (expired_iff _ _).mpr hv]
    show (q.deliver chk _ (.via d x.tunnel b) m rnd true).out _ = _
    unfold State.deliver
    dsimp only
    rw [hy]
    rfl
  rw [e']
  show q.log ++ [_] ++ [_] = _
  rw [List.append_assoc]
  rfl

/-- C153 does not hold when a lease set comes from the database: the leases of the lease set it replaces are forgotten, although they are good. A message over a route
that uses one of them is then dropped, the caller is told that it was sent, and a debug build stops. -/
theorem C153_refreshed_violated (chk : Bool) (s : State) (d : Nat) (l : LSet) (c : Ctx) (x : Lease) (m m' : Bytes) (b rnd : Nat) (rnds : Nat → Nat) (ok : Bool) (hc : s.remotes.get d = some c)
    (h : s.result d = some (.ok l)) (hv : Valid l s.now) (_ : x ∈ c.ls.leases) (_ : s.now < x.expires) (hx : ∀ y ∈ l.leases, y.tunnel ≠ x.tunnel)
    (he : c.expiring.get x.tunnel = none) (hh : c.held = []) :
    let s' := s.step chk (.settle d rnds fun _ => true)
    let s'' := s'.step chk (.send (.via d x.tunnel b) (some m) rnd ok)
    s''.log = s'.log ++ [.lost d m, .ret .ok] ∧ (chk = true → s''.panicked = true) := by
  intro s' s''
  have hs' : s' = (({ (s.over d (.ok l)).out (.remote d l.key) with remotes := s.remotes.put d { c with ls := l, held := [] } } : State).out (.event (.found d))) := by
    show s.settle chk d rnds _ = _
    unfold State.settle
    rw [h]
    dsimp only
    unfold State.found
    rw [show ((s.over d (.ok l)).out (.remote d l.key)).remotes.get d = some c from hc]
    dsimp only
    rw [hh]
    rfl
  have hg : s'.remotes.get d = some { c with ls := l, held := [] } := by
    rw [hs']
    show (s.remotes.put d _).get d = _
    rw [AMap.get_put, if_pos rfl]
  have hn : s'.now = s.now := by rw [hs']; rfl
  have hle : ({ c with ls := l, held := [] } : Ctx).lease x.tunnel = none := by
    unfold Ctx.lease
    have : l.leases.find? (fun y => decide (y.tunnel = x.tunnel)) = none := by
      rw [List.find?_eq_none]
      intro y hy
      simpa using hx y hy
    dsimp only
    rw [this]
    exact he
  have e : s'' = ({ s'.out (.lost d m) with panicked := s'.panicked || chk } : State).out (.ret .ok) := by
    show s'.send chk _ (some m) rnd ok = _
    unfold State.send State.sendInner
    rw [show s'.remotes.get (Style.via d x.tunnel b).dest = _ from hg]
    dsimp only
    rw [hn, (expired_iff _ _).mpr hv]
    show (s'.deliver chk _ (.via d x.tunnel b) m rnd ok).out _ = _
    unfold State.deliver
    dsimp only
    rw [hle]
    rfl
  rw [e]
  refine ⟨?_, ?_⟩
  · show s'.log ++ [_] ++ [_] = _
    rw [List.append_assoc]
    rfl
  · intro hk
    show (s'.panicked || chk) = true
    rw [hk, Bool.or_true]

/-! ## C154: received messages -/

theorem payloads_cloves (chk : Bool) (l : List Clove) : ∀ s : State, (s.cloves chk l).2 = payloads l := by
  induction l with
  | nil => intro s; rfl
  | cons c l ih =>
    intro s
    show (s.clove chk c).2.toList ++ ((s.clove chk c).1.cloves chk l).2 = _
    rw [ih]
    show _ = payloads (c :: l)
    cases c with
    | store ls => unfold State.clove; dsimp only; split <;> rfl
    | data b =>
      unfold State.clove payloads
      dsimp only
      by_cases hb : b.length ≤ 4
      · rw [if_pos hb]
        simp [List.filterMap_cons, Nat.not_lt.mpr hb]
      · rw [if_neg hb]
        simp [List.filterMap_cons, Nat.lt_of_not_le hb]
    | other => rfl

/-- The user gets exactly the data messages inside a message, in order, each without its length field, in one event; there is no event for a message without data. -/
theorem C154_messages (chk : Bool) (s : State) (l : List Clove) :
    (s.step chk (.receive l)).log = s.log ++ if payloads l = [] then [] else [.event (.messages (payloads l))] := by
  show (s.receive chk l).log = _
  unfold State.receive
  dsimp only
  rw [payloads_cloves]
  split
  · rw [(cloves_rest chk l s).2.2.2, List.append_nil]
  · show (s.cloves chk l).1.log ++ [_] = _
    rw [(cloves_rest chk l s).2.2.2]

/-! ## C155: requests of routing paths -/

theorem paths_sendInner (chk : Bool) (s : State) (st : Style) (m : Bytes) (r : Nat) (ok : Bool) : (s.sendInner chk st m r ok).1.paths = s.paths := by
  unfold State.sendInner
  split
  · rfl
  · split
    · exact query_paths _ _
    · exact (deliver_rest chk s _ st m r ok).2.2.2.1

theorem paths_flush (chk : Bool) (e : Nat) (l : List Bytes) : ∀ (s : State) (k : Nat) (rnd : Nat → Nat) (ok : Nat → Bool), (State.flush chk e s k rnd ok l).paths = s.paths := by
  induction l with
  | nil => intro s k rnd ok; rfl
  | cons m l ih => intro s k rnd ok; exact (ih _ _ _ _).trans (paths_sendInner ..)

theorem paths_settle (chk : Bool) (s : State) (d : Nat) (rnd : Nat → Nat) (ok : Nat → Bool) (r : Except QErr LSet) (h : s.result d = some r) :
    (s.step chk (.settle d rnd ok)).paths = s.paths.register s.now d (r.toOption.map LSet.routes) := by
  show (s.settle chk d rnd ok).paths = _
  unfold State.settle
  rw [h]
  cases r with
  | error e => rfl
  | ok l =>
    show (State.found ..).paths = _
    unfold State.found
    split
    · rw [paths_flush]; rfl
    · rfl

theorem get_reply (s : RPath.Sys) (rids : List Nat) (b : Bool) (rid : Nat) (h : rid ∈ rids) : (s.reply rids b).answers.get rid = some b := by
  show (s.answers.puts (rids.map fun r => (r, b))).get rid = _
  rw [AMap.get_puts]
  cases hg : AMap.get (rids.map fun r => (r, b)).reverse rid with
  | some v =>
    have := AMap.get_mem hg
    rw [List.mem_reverse] at this
    obtain ⟨z, _, e⟩ := List.mem_map.mp this
    injection e with _ e
    rw [← e]
  | none =>
    unfold AMap.get at hg
    rw [Option.map_eq_none_iff, List.find?_eq_none] at hg
    refine absurd ?_ (hg (rid, b) ?_)
    · simp
    · rw [List.mem_reverse]
      exact List.mem_map.mpr ⟨rid, h, rfl⟩

/-- C155, part: when a query for a remote ends, every routing path that waits for its lease set is told whether it was found. Partial: this requires that a query was
made, see `C155_dropped_violated`. -/
theorem C155_told_partial (chk : Bool) (s : State) (d : Nat) (rnd : Nat → Nat) (ok : Nat → Bool) (r : Except QErr LSet) (h : s.result d = some r) (rids : List Nat)
    (hp : s.paths.pending.get d = some rids) (rid : Nat) (hr : rid ∈ rids) :
    (s.step chk (.settle d rnd ok)).paths.answers.get rid = some r.isOk
      ∧ (s.step chk (.settle d rnd ok)).paths.pending.get d = none := by
  rw [paths_settle chk s d rnd ok r h]
  have hdel : (s.paths.pending.del d).get d = none := by rw [AMap.get_del, if_pos rfl]
  unfold RPath.Sys.register
  rw [hp]
  cases r with
  | error e => exact ⟨get_reply _ _ _ _ hr, hdel⟩
  | ok l => exact ⟨get_reply _ _ _ _ hr, hdel⟩

/-- C155, part: a request for a remote without a valid lease set has a query running for it afterwards, and waits for it. -/
theorem C155_asked_partial (chk : Bool) (s : State) (d rid : Nat) (cmds : List (Nat × Nat)) (hq : s.paths.cmds = (d, rid) :: cmds) (hp : s.paths.pending.get d = none) (hs : s.status d ≠ .found) :
    (s.step chk .serve).status d = .pending ∧ (s.step chk .serve).paths.pending.get d = some [rid] := by
  have hsv : s.paths.serve = (some d, { s.paths with cmds := cmds, pending := s.paths.pending.put d [rid] }) := by
    unfold RPath.Sys.serve
    rw [hq]
    dsimp only
    rw [hp]
  have e : s.step chk .serve = State.query { s with paths := { s.paths with cmds := cmds, pending := s.paths.pending.put d [rid] } } d := by
    show s.serve = _
    unfold State.serve
    rw [hsv]
  rw [e]
  refine ⟨?_, ?_⟩
  · have hm : d ∈ (State.query { s with paths := { s.paths with cmds := cmds, pending := s.paths.pending.put d [rid] } } d).pending := by
      rw [State.query_eq]
      split
      · exact List.mem_append_right _ (List.mem_singleton.mpr rfl)
      · rename_i h
        have h' : s.status d ≠ .notFound := h
        unfold State.status at hs h'
        by_cases hm : d ∈ s.pending
        · exact hm
        · rw [if_neg hm] at hs h'
          split at hs
          · exact absurd rfl hs
          · rename_i hr
            rw [if_neg hr] at h'
            exact absurd rfl h'
    unfold State.status
    rw [if_pos hm]
  · rw [query_paths]
    show (s.paths.pending.put d [rid]).get d = _
    rw [AMap.get_put, if_pos rfl]

/-- C155, part: the leases of a lease set that a query found are then known to new routing paths, and every routing path of the remote whose event queue has room is told about them. -/
theorem C155_routes_partial (chk : Bool) (s : State) (d : Nat) (rnd : Nat → Nat) (ok : Nat → Bool) (l : LSet) (h : s.result d = some (.ok l)) :
    (∀ x ∈ l.leases, s.now < x.expires → ∃ k, (s.step chk (.settle d rnd ok)).paths.leases.get d = some k ∧ (x.tunnel, x.expires) ∈ k)
      ∧ ∀ (i : Nat) (hd : RPath.Hnd), s.paths.handles[i]? = some hd → hd.dest = d → hd.alive = true → hd.queue.length < RPath.eventCap →
        ∃ hd', (s.step chk (.settle d rnd ok)).paths.handles[i]? = some hd' ∧ hd'.queue = hd.queue ++ [.inboundBuilt (l.leases.map fun x => (x.tunnel, x.expires))] := by
  rw [paths_settle chk s d rnd ok _ h]
  have e : ∀ w : Option (List Nat), s.paths.pending.get d = w → (s.paths.register s.now d (some l.routes)).leases = s.paths.leases.put d (((s.paths.leases.get d).getD [] ++ l.routes).filter fun x => x.2 > s.now)
      ∧ (s.paths.register s.now d (some l.routes)).handles = s.paths.handles.map fun h => if h.dest = d then h.notify (.inboundBuilt l.routes) else h := by
    intro w hw
    unfold RPath.Sys.register
    rw [hw]
    cases w <;> exact ⟨rfl, rfl⟩
  obtain ⟨e1, e2⟩ := e _ rfl
  refine ⟨?_, ?_⟩
  · intro x hx hn
    refine ⟨((s.paths.leases.get d).getD [] ++ l.routes).filter fun x => x.2 > s.now, ?_, ?_⟩
    · show AMap.get (s.paths.register s.now d (some l.routes)).leases d = _
      rw [e1, AMap.get_put, if_pos rfl]
    · exact List.mem_filter.mpr ⟨List.mem_append_right _ (List.mem_map.mpr ⟨x, hx, rfl⟩), decide_eq_true hn⟩
  · intro i hd hi h1 h2 h3
    refine ⟨hd.notify (.inboundBuilt l.routes), ?_, ?_⟩
    · show (s.paths.register s.now d (some l.routes)).handles[i]? = _
      rw [e2, List.getElem?_map, hi]
      show some (if hd.dest = d then _ else _) = _
      rw [if_pos h1]
    · unfold RPath.Hnd.notify
      rw [if_pos h2, if_pos h3]
      rfl

/-- The routing path manager keeps a list of those who wait for the lease set of `d`, and nobody is told. -/
def Unanswered (s : State) (d rid : Nat) : Prop := ∃ rids, s.paths.pending.get d = some rids ∧ rid ∈ rids

theorem pending_reply (s : RPath.Sys) (rids : List Nat) (b : Bool) : (s.reply rids b).pending = s.pending := rfl

theorem register_pending (s : RPath.Sys) (now : Duration) (e : Nat) (r : Option (List RPath.Lease)) : (s.register now e r).pending = s.pending.del e := by
  unfold RPath.Sys.register
  dsimp only
  split
  · rfl
  · rfl
  · split <;> rfl

theorem sent_pending (s : RPath.Sys) (d : Nat) (b : Bool) : (s.sent d b).pending = s.pending := by
  unfold RPath.Sys.sent
  split <;> rfl

theorem path_pending (chk : Bool) (s : RPath.Sys) (o : RPath.Op) (h : pathOp o = true) : (RPath.step chk s o).2.pending = s.pending := by
  cases o with
  | leases now d r => cases h
  | serve => cases h
  | subscribe d => rfl
  | built id => rfl
  | expiring now id => rfl
  | expired id => rfl
  | poll k now =>
    unfold RPath.step
    dsimp only
    split
    · split <;> rfl
    · rfl
  | path k now r =>
    unfold RPath.step
    dsimp only
    split
    · split
      · exact sent_pending _ _ _
      · rfl
    · rfl
  | recreate k now r =>
    unfold RPath.step
    dsimp only
    split
    · split
      · exact sent_pending _ _ _
      · rfl
    · rfl
  | drop k => unfold RPath.step; dsimp only; split <;> rfl

theorem unanswered_of {s s' : State} {d rid : Nat} (h : Unanswered s d rid) (hp : s'.paths.pending = s.paths.pending) : Unanswered s' d rid := by
  unfold Unanswered
  rw [hp]
  exact h

theorem unanswered_cloves {d rid : Nat} {chk : Bool} (l : List Clove) : ∀ {s : State}, Unanswered s d rid → (∀ ls, Clove.store ls ∈ l → ls.dest ≠ d) → Unanswered (s.cloves chk l).1 d rid := by
  induction l with
  | nil => intro s h _; exact h
  | cons c l ih =>
    intro s h hl
    refine ih ?_ fun ls hm => hl ls (List.mem_cons_of_mem _ hm)
    cases c with
    | store ls =>
      unfold State.clove
      dsimp only
      split
      · exact h
      · obtain ⟨rids, h1, h2⟩ := h
        refine ⟨rids, ?_, h2⟩
        show (s.paths.register s.now ls.dest _).pending.get d = _
        rw [register_pending, AMap.get_del, if_neg (Ne.symm (hl ls List.mem_cons_self))]
        exact h1
    | data b => unfold State.clove; dsimp only; split <;> exact h
    | other => exact h

theorem unanswered_step {d rid : Nat} {chk : Bool} {s : State} (hi : Idle d s) (h : Unanswered s d rid) (o : Op)
    (h2 : ∀ l, o = .receive l → ∀ ls, Clove.store ls ∈ l → ls.dest ≠ d) : Unanswered (s.step chk o) d rid := by
  cases o with
  | tick t => exact h
  | query e => exact unanswered_of h (by show (s.query e).paths.pending = _; rw [query_paths])
  | send st enc r ok =>
    show Unanswered (s.send chk st enc r ok) d rid
    unfold State.send
    split
    · exact unanswered_of h (by show (State.sendInner ..).1.paths.pending = _; rw [paths_sendInner])
    · exact h
  | sessionSend e m r ok => exact unanswered_of h (by show (State.sendInner ..).1.paths.pending = _; rw [paths_sendInner])
  | sessionEnd e => exact h
  | receive l =>
    have hc := unanswered_cloves (chk := chk) l h (h2 l rfl)
    show Unanswered (s.receive chk l) d rid
    unfold State.receive
    dsimp only
    split <;> exact hc
  | attempt e b => exact h
  | answer e r => exact h
  | settle e rnd ok =>
    cases hr : s.result e with
    | none =>
      rw [(C149_outcome chk s e rnd ok).2.2 hr]
      exact h
    | some r =>
      obtain ⟨f, hf, hd, _⟩ := mem_result hr
      have hde : d ≠ e := by
        intro x
        refine hi.idle ?_
        rw [hi.tied.1]
        exact List.mem_map.mpr ⟨f, hf, hd.trans x.symm⟩
      obtain ⟨rids, h1, h2⟩ := h
      refine ⟨rids, ?_, h2⟩
      rw [paths_settle chk s e rnd ok r hr, register_pending, AMap.get_del, if_neg hde]
      exact h1
  | serve =>
    obtain ⟨rids, h1, h3⟩ := h
    have hsv : ∃ rids, s.paths.serve.2.pending.get d = some rids ∧ rid ∈ rids := by
      unfold RPath.Sys.serve
      split
      · exact ⟨rids, h1, h3⟩
      · rename_i e rid' cmds _
        dsimp only
        by_cases hde : d = e
        · subst hde
          rw [h1]
          exact ⟨rids ++ [rid'], by show (s.paths.pending.put d _).get d = _; rw [AMap.get_put, if_pos rfl], List.mem_append_left _ h3⟩
        · split
          · exact ⟨rids, by show (s.paths.pending.put e _).get d = _; rw [AMap.get_put, if_neg hde]; exact h1, h3⟩
          · exact ⟨rids, by show (s.paths.pending.put e _).get d = _; rw [AMap.get_put, if_neg hde]; exact h1, h3⟩
    show Unanswered s.serve d rid
    unfold State.serve
    dsimp only
    split
    · show ∃ rids, (State.query _ _).paths.pending.get d = _ ∧ _
      rw [query_paths]
      exact hsv
    · exact hsv
  | path o =>
    show Unanswered (s.step chk (.path o)) d rid
    unfold State.step
    dsimp only
    split
    · rename_i ho
      exact unanswered_of h (path_pending chk s.paths o ho)
    · exact h
  | prune => exact h

/-- C155 does not hold: a routing path asks for a new lease set when the leases it knows have less than thirty seconds to live. As long as the lease set that is
known has not expired, the destination makes no query for it and does not answer: the request waits until the remote happens to send a lease set, or until the
lease set has expired and something else asks. -/
theorem C155_dropped_violated (chk : Bool) (t : Duration) (out : List Nat) (before ops : List Op) (d rid : Nat) (cmds : List (Nat × Nat))
    (hs : (after chk t out before).status d = .found) (hq : (after chk t out before).paths.cmds = (d, rid) :: cmds) (hp : (after chk t out before).paths.pending.get d = none)
    (hu : ∀ a b, ops = a ++ b → Usable (((after chk t out before).step chk .serve).run chk a) d) (hl : ∀ l, Op.receive l ∈ ops → ∀ ls, Clove.store ls ∈ l → ls.dest ≠ d) :
    let s' := ((after chk t out before).step chk .serve).run chk ops
    Unanswered s' d rid ∧ s'.status d = .found := by
  have hi : Idle d (after chk t out before) := by
    refine ⟨tied_run (tied_init t out) before, ?_⟩
    intro hm
    unfold State.status at hs
    rw [if_pos hm] at hs
    cases hs
  have hu0 : Usable (after chk t out before) d := by
    unfold State.status at hs
    rw [if_neg hi.idle] at hs
    split at hs
    · exact (usable_iff _ _).mp (by assumption)
    · cases hs
  generalize after chk t out before = s at *
  have h0 : Unanswered (s.step chk .serve) d rid := by
    have hsv : s.paths.serve = (some d, { s.paths with cmds := cmds, pending := s.paths.pending.put d [rid] }) := by
      unfold RPath.Sys.serve
      rw [hq]
      dsimp only
      rw [hp]
    show Unanswered s.serve d rid
    unfold State.serve
    rw [hsv]
    dsimp only
    refine ⟨[rid], ?_, List.mem_singleton.mpr rfl⟩
    rw [query_paths]
    show (s.paths.pending.put d [rid]).get d = _
    rw [AMap.get_put, if_pos rfl]
  have key : ∀ (ops : List Op) (s : State), Idle d s → Unanswered s d rid → (∀ a b, ops = a ++ b → Usable (s.run chk a) d) → (∀ l, Op.receive l ∈ ops → ∀ ls, Clove.store ls ∈ l → ls.dest ≠ d) →
      Unanswered (s.run chk ops) d rid ∧ Idle d (s.run chk ops) ∧ Usable (s.run chk ops) d := by
    intro ops
    induction ops with
    | nil => intro s hi h hu _; exact ⟨h, hi, hu [] [] rfl⟩
    | cons o l ih =>
      intro s hi h hu hl
      exact ih (s.step chk o) (idle_step hi (hu [] _ rfl) o).1 (unanswered_step hi h o fun k e => hl k (e ▸ List.mem_cons_self)) (fun a b e => hu (o :: a) b (by rw [e]; rfl))
        fun k hk => hl k (List.mem_cons_of_mem _ hk)
  obtain ⟨h1, h2, h3⟩ := key ops (s.step chk .serve) (idle_step hi hu0 .serve).1 h0 hu hl
  refine ⟨h1, ?_⟩
  unfold State.status
  rw [if_neg h2.idle, if_pos ((usable_iff _ _).mpr h3)]

end Emissary.Dest
