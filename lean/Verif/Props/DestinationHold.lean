import Verif.Props.DestinationSend
/-!
# C151 to C155: messages that wait for a lease set, routes after a lease set was replaced, received messages, and requests of routing paths
-/
namespace Emissary.Dest
open Emissary.I2np (Duration)

/-! ## No panic -/

theorem calm_deliver {s : State} {c : Ctx} (h : s.panicked = false) (hv : c.ls.expired s.now = false) (st : Style) (m : Bytes) (r : Nat) (ok : Bool) :
    (s.deliver false c st m r ok).panicked = false := by
  unfold State.deliver
  cases st with
  | via d i b =>
    dsimp only
    split
    · unfold State.give; split <;> exact h
    · show (s.panicked || false) = false
      rw [h]; rfl
  | any d =>
    obtain ⟨x, _, e⟩ := pick_some ((expired_iff _ _).mp hv) r
    dsimp only
    rw [e]
    dsimp only
    unfold State.give
    split <;> exact h

theorem calm_sendInner {s : State} (h : s.panicked = false) (st : Style) (m : Bytes) (r : Nat) (ok : Bool) : (s.sendInner false st m r ok).1.panicked = false := by
  unfold State.sendInner
  split
  · show (s.panicked || false) = false
    rw [h]; rfl
  · split
    · show (State.query _ _).panicked = false
      rw [query_panicked]; exact h
    · rename_i hv
      exact calm_deliver h (by simpa using hv) st m r ok

theorem calm_flush {d : Nat} (l : List Bytes) : ∀ {s : State} (i : Nat) (rnd : Nat → Nat) (ok : Nat → Bool), s.panicked = false → (State.flush false d s i rnd ok l).panicked = false := by
  induction l with
  | nil => intro s i rnd ok h; exact h
  | cons m l ih => intro s i rnd ok h; exact ih _ _ _ (calm_sendInner h _ _ _ _)

theorem calm_cloves (l : List Clove) : ∀ {s : State}, s.panicked = false → (s.cloves false l).1.panicked = false := by
  induction l with
  | nil => intro s h; exact h
  | cons c l ih =>
    intro s h
    refine ih ?_
    cases c with
    | store ls => unfold State.clove; dsimp only; split <;> exact h
    | data b =>
      unfold State.clove
      dsimp only
      split
      · show (s.panicked || false) = false
        rw [h]; rfl
      · exact h
    | other => exact h

/-- A release build never panics, whatever lease sets and messages remotes and the database send: the choice of a lease is always within bounds, because a
lease set without a lease that can be used is never sent to. -/
theorem C150_no_panic (t : Duration) (out : List Nat) (ops : List Op) : (after false t out ops).panicked = false := by
  refine run_inv (P := fun s => s.panicked = false) ?_ ops _ rfl
  intro s o h
  cases o with
  | tick t => exact h
  | query d => show (s.query d).panicked = false; rw [query_panicked]; exact h
  | send st enc r ok =>
    show (s.send false st enc r ok).panicked = false
    unfold State.send
    split
    · exact calm_sendInner h st _ r ok
    · exact h
  | sessionSend d m r ok => exact calm_sendInner h _ _ _ _
  | sessionEnd d => exact h
  | receive l =>
    show (s.receive false l).panicked = false
    unfold State.receive
    dsimp only
    split <;> exact calm_cloves l h
  | attempt d b => exact h
  | answer d r => exact h
  | settle d rnd ok =>
    show (s.settle false d rnd ok).panicked = false
    unfold State.settle
    split
    · exact h
    · exact h
    · show (State.found ..).panicked = false
      unfold State.found
      split
      · exact calm_flush _ _ _ _ h
      · exact h
  | serve =>
    show s.serve.panicked = false
    unfold State.serve
    dsimp only
    split
    · rw [query_panicked]; exact h
    · exact h
  | path o => show (s.step false (.path o)).panicked = false; unfold State.step; dsimp only; split <;> exact h
  | prune => exact h

/-- In a debug build anyone who can send to the destination can stop it, with a data message of at most four bytes. -/
theorem C150_debug_violated (s : State) (b : Bytes) (h : b.length ≤ 4) : (s.step true (.receive [.data b])).panicked = true := by
  have e : s.cloves true [.data b] = ({ s with panicked := s.panicked || true }, []) := by
    show ((s.clove true (.data b)).1, (s.clove true (.data b)).2.toList ++ []) = _
    unfold State.clove
    dsimp only
    rw [if_pos h]
    rfl
  show (s.receive true [.data b]).panicked = true
  unfold State.receive
  rw [e]
  show (s.panicked || true) = true
  exact Bool.or_true _

/-! ## C151: conservation -/

/-- All messages for `d` that a state knows about. -/
def known (s : State) (d : Nat) : List Bytes := gone d s.log ++ waiting s d

theorem gone_append (d : Nat) (a b : List Out) : gone d (a ++ b) = gone d a ++ gone d b := List.flatMap_append

theorem waiting_of {s s' : State} (h : s'.remotes = s.remotes) (d : Nat) : waiting s' d = waiting s d := by unfold waiting; rw [h]

theorem waiting_put (s : State) (e d : Nat) (c : Ctx) : waiting { s with remotes := s.remotes.put e c } d = if d = e then c.held else waiting s d := by
  unfold waiting
  show (match (s.remotes.put e c).get d with | some c => c.held | none => []) = _
  rw [AMap.get_put]
  by_cases h : d = e
  · simp only [if_pos h]
  · simp only [if_neg h]; rfl

theorem gone_give (s : State) (e : Nat) (m : Bytes) (r t : Nat) (o : Option Nat) (ok : Bool) (d : Nat) :
    gone d (s.give e m r t o ok).log = gone d s.log ++ if e = d then [m] else [] := by
  unfold State.give
  split
  · show gone d (s.log ++ [_]) = _
    rw [gone_append]
    simp [gone]
  · show gone d (s.log ++ [_]) = _
    rw [gone_append]
    simp [gone]

theorem known_sendInner (chk : Bool) (s : State) (st : Style) (m : Bytes) (r : Nat) (ok : Bool) (d : Nat) :
    (known (s.sendInner chk st m r ok).1 d).Perm (known s d ++ if st.dest = d ∧ s.leaseSet d ≠ none then [m] else []) := by
  unfold State.sendInner
  split
  · rename_i hn
    have : (if st.dest = d ∧ s.leaseSet d ≠ none then [m] else []) = [] := by
      rw [if_neg]
      rintro ⟨e, h⟩
      apply h
      unfold State.leaseSet
      rw [← e, hn]
      rfl
    rw [this, List.append_nil]
    exact .refl _
  · rename_i c hc
    have hl : (if st.dest = d ∧ s.leaseSet d ≠ none then [m] else []) = if st.dest = d then [m] else [] := by
      by_cases e : st.dest = d
      · rw [if_pos e, if_pos]
        refine ⟨e, ?_⟩
        unfold State.leaseSet
        rw [← e, hc]
        simp
      · rw [if_neg e, if_neg (fun h => e h.1)]
    rw [hl]
    split
    · unfold State.hold known
      dsimp only
      rw [query_log, waiting_of (query_remotes _ _), waiting_put, List.append_assoc]
      by_cases e : st.dest = d
      · rw [if_pos e.symm, if_pos e]
        have : waiting s d = c.held := by unfold waiting; rw [← e, hc]
        rw [this]
      · rw [if_neg (Ne.symm e), if_neg e, List.append_nil]
    · rename_i hv
      have hv : c.ls.expired s.now = false := by simpa using hv
      have hw : waiting (s.deliver chk c st m r ok) d = waiting s d := waiting_of (deliver_rest chk s c st m r ok).2.2.1 d
      have hg : gone d (s.deliver chk c st m r ok).log = gone d s.log ++ if st.dest = d then [m] else [] := by
        unfold State.deliver
        cases st with
        | via e i b =>
          dsimp only
          split
          · exact gone_give ..
          · show gone d (s.log ++ [.lost e m]) = _
            rw [gone_append]
            simp [gone, Style.dest]
            rfl
        | any e =>
          obtain ⟨x, _, ex⟩ := pick_some ((expired_iff _ _).mp hv) r
          dsimp only
          rw [ex]
          exact gone_give ..
      unfold known
      dsimp only
      rw [hw, hg, List.append_assoc, List.append_assoc]
      exact List.Perm.append_left _ List.perm_append_comm

theorem known_flush (chk : Bool) (e d : Nat) (l : List Bytes) : ∀ (s : State) (i : Nat) (rnd : Nat → Nat) (ok : Nat → Bool), s.leaseSet e ≠ none →
    (known (State.flush chk e s i rnd ok l) d).Perm (known s d ++ if e = d then l else []) := by
  induction l with
  | nil => intro s i rnd ok _; show (known s d).Perm _; simp
  | cons m l ih =>
    intro s i rnd ok h
    have h1 := ih (s.sendInner chk (.any e) m (rnd i) (ok i)).1 (i + 1) rnd ok (by rw [leaseSet_sendInner]; exact h)
    have h2 := known_sendInner chk s (.any e) m (rnd i) (ok i) d
    refine h1.trans ?_
    refine (List.Perm.append_right _ h2).trans ?_
    rw [List.append_assoc]
    refine List.Perm.append_left _ ?_
    by_cases hd : e = d
    · subst hd
      rw [if_pos ⟨rfl, h⟩, if_pos rfl, if_pos rfl]
      exact .refl _
    · rw [if_neg (fun x => hd x.1), if_neg hd, if_neg hd]
      exact .refl _

theorem known_found (chk : Bool) (s : State) (e : Nat) (l : LSet) (rnd : Nat → Nat) (ok : Nat → Bool) (d : Nat) : (known (s.found chk e l rnd ok) d).Perm (known s d) := by
  unfold State.found
  split
  · rename_i c hc
    have h := known_flush chk e d c.held { s with remotes := s.remotes.put e { c with ls := l, held := [] } } 0 rnd ok (by
      unfold State.leaseSet
      show ((s.remotes.put e _).get e).map Ctx.ls ≠ none
      rw [AMap.get_put, if_pos rfl]
      simp)
    refine h.trans ?_
    unfold known
    rw [waiting_put]
    show (gone d s.log ++ _ ++ _).Perm _
    by_cases hd : e = d
    · subst hd
      rw [if_pos rfl, if_pos rfl, List.append_nil]
      have : waiting s e = c.held := by unfold waiting; rw [hc]
      rw [this]
    · rw [if_neg (Ne.symm hd), if_neg hd, List.append_nil]
  · rename_i hc
    unfold known
    rw [waiting_put]
    by_cases hd : d = e
    · subst hd
      rw [if_pos rfl]
      have : waiting s d = [] := by unfold waiting; rw [hc]
      rw [this]
    · rw [if_neg hd]

theorem waiting_learn (s : State) (l : LSet) (d : Nat) : waiting (s.learn l) d = waiting s d := by
  unfold State.learn
  rw [waiting_put]
  split
  · rename_i e
    unfold waiting
    rw [e]
    cases s.remotes.get l.dest <;> rfl
  · rfl

theorem waiting_cloves (chk : Bool) (d : Nat) (l : List Clove) : ∀ s : State, waiting (s.cloves chk l).1 d = waiting s d := by
  induction l with
  | nil => intro s; rfl
  | cons c l ih =>
    intro s
    refine (ih _).trans ?_
    cases c with
    | store ls =>
      unfold State.clove
      dsimp only
      split
      · rfl
      · exact waiting_learn _ ls d
    | data b => unfold State.clove; dsimp only; split <;> rfl
    | other => rfl

theorem waiting_prune (s : State) (d : Nat) : waiting s.prune d = waiting s d := by
  have h : s.prune.remotes.get d = (s.remotes.get d).map fun c => { c with expiring := c.expiring.keep fun _ l => decide (l.expires > s.now) } := by
    show AMap.get (s.remotes.map fun x => (x.1, { x.2 with expiring := x.2.expiring.keep fun _ l => decide (l.expires > s.now) })) d = _
    unfold AMap.get
    rw [List.find?_map, Option.map_map, Option.map_map]
    rfl
  unfold waiting
  rw [h]
  cases s.remotes.get d <;> rfl

theorem known_out (s : State) (o : Out) (d : Nat) (ho : gone d [o] = []) : known (s.out o) d = known s d := by
  unfold known
  show gone d (s.log ++ [o]) ++ waiting s d = _
  rw [gone_append, ho, List.append_nil]

theorem known_same {s s' : State} (hr : s'.remotes = s.remotes) (hl : s'.log = s.log) (d : Nat) : known s' d = known s d := by
  unfold known
  rw [waiting_of hr, hl]

theorem known_query (s : State) (e d : Nat) : known (s.query e) d = known s d := known_same (query_remotes s e) (query_log s e) d

theorem known_over (s : State) (e : Nat) (r : Except QErr LSet) (d : Nat) : known (s.over e r) d = known s d := known_same rfl rfl d

theorem known_step (chk : Bool) (s : State) (o : Op) (d : Nat) : (known (s.step chk o) d).Perm (known s d ++ taken s d o) := by
  cases o with
  | tick t => rw [show taken s d (.tick t) = [] from rfl, List.append_nil]; exact .of_eq (known_same rfl rfl d)
  | query e =>
    rw [show taken s d (.query e) = [] from rfl, List.append_nil]
    exact .of_eq ((known_out (s.query e) (.status e (s.status e)) d rfl).trans (known_query s e d))
  | send st enc r ok =>
    show (known (s.send chk st enc r ok) d).Perm _
    unfold State.send
    cases enc with
    | some m =>
      refine (List.Perm.of_eq (known_out (s.sendInner chk st m r ok).1 (.ret (s.sendInner chk st m r ok).2) d rfl)).trans ?_
      exact known_sendInner chk s st m r ok d
    | none =>
      rw [show taken s d (.send st none r ok) = [] from rfl, List.append_nil]
      exact .of_eq (known_out s (.ret .session) d rfl)
  | sessionSend e m r ok => exact known_sendInner chk s (.any e) m r ok d
  | sessionEnd e => rw [show taken s d (.sessionEnd e) = [] from rfl, List.append_nil]; exact .of_eq (known_out s (.event (.terminated e)) d rfl)
  | receive l =>
    rw [show taken s d (.receive l) = [] from rfl, List.append_nil]
    refine .of_eq ?_
    show known (s.receive chk l) d = known s d
    have h1 : waiting (s.receive chk l) d = waiting s d := (waiting_of (receive_rest chk s l).2.2.2 d).trans (waiting_cloves chk d l s)
    have h2 : gone d (s.receive chk l).log = gone d s.log := by
      unfold State.receive
      dsimp only
      split
      · rw [(cloves_rest chk l s).2.2.2]
      · show gone d ((s.cloves chk l).1.log ++ [_]) = _
        rw [(cloves_rest chk l s).2.2.2, gone_append]
        simp [gone]
    unfold known
    rw [h1, h2]
  | attempt e b => rw [show taken s d (.attempt e b) = [] from rfl, List.append_nil]; exact .of_eq (known_same rfl rfl d)
  | answer e r => rw [show taken s d (.answer e r) = [] from rfl, List.append_nil]; exact .of_eq (known_same rfl rfl d)
  | settle e rnd ok =>
    rw [show taken s d (.settle e rnd ok) = [] from rfl, List.append_nil]
    show (known (s.settle chk e rnd ok) d).Perm _
    unfold State.settle
    split
    · exact .refl _
    · rename_i x _
      exact .of_eq ((known_out (s.over e (.error x)) (.event (.notFound e x)) d rfl).trans (known_over ..))
    · rename_i l _
      refine (List.Perm.of_eq (known_out (State.found chk ((s.over e (.ok l)).out (.remote e l.key)) e l rnd ok) (.event (.found e)) d rfl)).trans ?_
      refine (known_found chk ((s.over e (.ok l)).out (.remote e l.key)) e l rnd ok d).trans ?_
      exact .of_eq ((known_out (s.over e (.ok l)) (.remote e l.key) d rfl).trans (known_over ..))
  | serve =>
    rw [show taken s d .serve = [] from rfl, List.append_nil]
    refine .of_eq ?_
    show known s.serve d = _
    unfold State.serve
    dsimp only
    split
    · exact known_same (query_remotes _ _) (query_log _ _) d
    · exact known_same rfl rfl d
  | path o =>
    rw [show taken s d (.path o) = [] from rfl, List.append_nil]
    refine .of_eq ?_
    show known (s.step chk (.path o)) d = _
    unfold State.step
    dsimp only
    split <;> exact known_same rfl rfl d
  | prune =>
    rw [show taken s d .prune = [] from rfl, List.append_nil]
    refine .of_eq ?_
    show known s.prune d = _
    unfold known
    rw [waiting_prune]
    rfl

/-- Every message that the destination takes for a remote leaves once, or is dropped once, or still waits: none is duplicated and none disappears. -/
theorem C151_conserved (chk : Bool) (t : Duration) (out : List Nat) (ops : List Op) (d : Nat) :
    (gone d (after chk t out ops).log ++ waiting (after chk t out ops) d).Perm (takenIn chk d (State.init t out) ops) := by
  have key : ∀ (l : List Op) (s : State), (known (s.run chk l) d).Perm (known s d ++ takenIn chk d s l) := by
    intro l
    induction l with
    | nil => intro s; show (known s d).Perm (known s d ++ []); simp
    | cons o l ih =>
      intro s
      refine (ih (s.step chk o)).trans ?_
      refine (List.Perm.append_right _ (known_step chk s o d)).trans ?_
      rw [List.append_assoc]
      exact .refl _
  exact key ops (State.init t out)

theorem deliver_any (chk : Bool) (s : State) (c : Ctx) (d : Nat) (m : Bytes) (r : Nat) (hv : Valid c.ls s.now) :
    ∃ x ∈ c.ls.leases, s.deliver chk c (.any d) m r true = s.out (.sent d m (s.now + msgLife) x.router x.tunnel none) := by
  obtain ⟨x, hx, e⟩ := pick_some hv r
  refine ⟨x, hx, ?_⟩
  unfold State.deliver
  dsimp only
  rw [e]
  rfl

theorem left_flush (chk : Bool) (d : Nat) (l : List Bytes) : ∀ (s : State) (i : Nat) (rnd : Nat → Nat) (c : Ctx), s.remotes.get d = some c → Valid c.ls s.now →
    left d (State.flush chk d s i rnd (fun _ => true) l).log = left d s.log ++ l ∧ (State.flush chk d s i rnd (fun _ => true) l).remotes = s.remotes := by
  induction l with
  | nil => intro s i rnd c _ _; exact ⟨(List.append_nil _).symm, rfl⟩
  | cons m l ih =>
    intro s i rnd c hc hv
    obtain ⟨x, hx, e⟩ := deliver_any chk s c d m (rnd i) hv
    have h1 : (s.sendInner chk (.any d) m (rnd i) true).1 = s.out (.sent d m (s.now + msgLife) x.router x.tunnel none) := by
      unfold State.sendInner
      show (match s.remotes.get d with | none => _ | some c => _ : State × Ret).1 = _
      rw [hc]
      dsimp only
      rw [(expired_iff _ _).mpr hv]
      exact e
    show left d (State.flush chk d (s.sendInner chk (.any d) m (rnd i) true).1 (i + 1) rnd (fun _ => true) l).log = _ ∧ (State.flush chk d (s.sendInner chk (.any d) m (rnd i) true).1 (i + 1) rnd (fun _ => true) l).remotes = _
    rw [h1]
    obtain ⟨h2, h3⟩ := ih (s.out (.sent d m (s.now + msgLife) x.router x.tunnel none)) (i + 1) rnd c hc hv
    refine ⟨?_, h3⟩
    rw [h2]
    show left d (s.log ++ [_]) ++ l = _
    unfold left
    rw [List.filterMap_append]
    simp

/-- When a lease set that can be used is found, all messages that waited leave at once, in the order in which they were handed over (while the tunnel pool
takes them). -/
theorem C151_released (chk : Bool) (s : State) (d : Nat) (rnd : Nat → Nat) (l : LSet) (h : s.result d = some (.ok l)) (hv : Valid l s.now) :
    left d (s.step chk (.settle d rnd fun _ => true)).log = left d s.log ++ waiting s d ∧ waiting (s.step chk (.settle d rnd fun _ => true)) d = [] := by
  show left d (s.settle chk d rnd fun _ => true).log = _ ∧ waiting (s.settle chk d rnd fun _ => true) d = []
  unfold State.settle
  rw [h]
  dsimp only
  unfold State.found
  have hlog : ∀ x : State, left d (x.out (.event (.found d))).log = left d x.log := by
    intro x
    show left d (x.log ++ [_]) = _
    unfold left
    rw [List.filterMap_append]
    simp
  have hover : left d ((s.over d (.ok l)).out (.remote d l.key)).log = left d s.log := by
    show left d (s.log ++ [_]) = _
    unfold left
    rw [List.filterMap_append]
    simp
  cases hc : s.remotes.get d with
  | some c =>
    have hc' : ((s.over d (.ok l)).out (.remote d l.key)).remotes.get d = some c := hc
    rw [hc']
    dsimp only
    have hw : waiting s d = c.held := by unfold waiting; rw [hc]
    have hg : (s.remotes.put d { c with ls := l, held := [] }).get d = some { c with ls := l, held := [] } := by rw [AMap.get_put, if_pos rfl]
    obtain ⟨h1, h2⟩ := left_flush chk d c.held { ((s.over d (.ok l)).out (.remote d l.key)) with remotes := s.remotes.put d { c with ls := l, held := [] } } 0 rnd
      { c with ls := l, held := [] } hg hv
    refine ⟨?_, ?_⟩
    · rw [hlog, hw]
      refine h1.trans ?_
      show left d ((s.over d (.ok l)).out (.remote d l.key)).log ++ _ = _
      rw [hover]
    · refine (waiting_of h2 d).trans ?_
      exact (waiting_put s d d { c with ls := l, held := [] }).trans (if_pos rfl)
  | none =>
    have hc' : ((s.over d (.ok l)).out (.remote d l.key)).remotes.get d = none := hc
    rw [hc']
    dsimp only
    have hw : waiting s d = [] := by unfold waiting; rw [hc]
    refine ⟨?_, ?_⟩
    · rw [hlog, hw, List.append_nil]
      exact hover
    · unfold waiting
      show (match (s.remotes.put d _).get d with | some c => c.held | none => []) = []
      rw [AMap.get_put, if_pos rfl]

end Emissary.Dest
