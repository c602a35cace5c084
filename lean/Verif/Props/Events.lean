import Verif.Model.Events
/-!
# C194, C195: the status events

The specification talks about the calls made before: numbers that were set or added, destinations
that were started.
-/
open scoped List
namespace Emissary.Events

/-! ## Specification -/

/-- The latest of the numbers that `f` picks out, 0 if there is none. -/
def latest (f : Op → Option Nat) (os : List Op) : Nat := (os.filterMap f).getLastD 0

/-- The sum of the numbers that `f` picks out, in 64 bits. -/
def total (f : Op → Option Nat) (os : List Op) : Nat := (os.filterMap f).sum % 2 ^ 64

/-- What a status made after the calls `os` should say. -/
def truth (os : List Op) : Numbers where
  transitTunnels := latest (fun | .setTransitTunnels n => some n | _ => none) os
  transitBandwidth := total (fun | .addTransitBandwidth n => some n | _ => none) os
  routers := latest (fun | .setRouters n => some n | _ => none) os
  bandwidth := total (fun | .addBandwidth n => some n | _ => none) os
  built := total (fun | .addTunnels b _ => some b | _ => none) os
  failed := total (fun | .addTunnels _ f => some f | _ => none) os

/-- What each status should say: one for each time the timer fires. -/
def ticks (os : List Op) : List Numbers :=
  (List.range os.length).filterMap fun i =>
    if os[i]? = some (.poll true) then some (truth (os.take i)) else none

/-- The numbers in the status events among `es`. -/
def statuses (es : List Event) : List Numbers :=
  es.filterMap fun | .status _ _ n => some n | _ => none

/-- The client destinations that were started. -/
def startedClients (os : List Op) : List String :=
  os.filterMap fun | .start (.client n) => some n | _ => none

/-- The server destinations that were started. -/
def startedServers (os : List Op) : List (String × String) :=
  os.filterMap fun | .start (.server n a) => some (n, a) | _ => none

/-- The client destinations that the events `es` tell of. -/
def clientsIn (es : List Event) : List String := es.flatMap fun | .status c _ _ => c | _ => []

/-- The server destinations that the events `es` tell of. -/
def serversIn (es : List Event) : List (String × String) :=
  es.flatMap fun | .status _ s _ => s | _ => []

/-- What the program has been told or will be when it reads on. -/
def State.told (s : State) : List Event := s.seen ++ s.queue

/-! ## Proof -/

theorem run_snoc (os : List Op) (o : Op) : run (os ++ [o]) = (run os).step o := by
  simp [run, List.foldl_append]

theorem snoc_ind {P : List Op → Prop} (h0 : P []) (h1 : ∀ os o, P os → P (os ++ [o])) (os) : P os := by
  rw [← List.reverse_reverse os]
  induction os.reverse with
  | nil => exact h0
  | cons o l ih => rw [List.reverse_cons]; exact h1 _ _ ih

theorem latest_snoc (f : Op → Option Nat) (os : List Op) (o : Op) :
    latest f (os ++ [o]) = (f o).getD (latest f os) := by
  unfold latest
  rw [List.filterMap_append]
  cases h : f o <;> simp [h]

theorem total_snoc (f : Op → Option Nat) (os : List Op) (o : Op) :
    total f (os ++ [o]) = (total f os + (f o).getD 0) % 2 ^ 64 := by
  unfold total
  rw [List.filterMap_append, List.sum_append]
  cases h : f o <;> simp [h]

theorem total_lt (f : Op → Option Nat) (os : List Op) : total f os % 2 ^ 64 = total f os :=
  Nat.mod_mod _ _

@[simp] theorem emit_numbers (s : State) (e : Event) : (s.emit e).numbers = s.numbers := by
  unfold State.emit; split <;> rfl
@[simp] theorem emit_clients (s : State) (e : Event) : (s.emit e).clients = s.clients := by
  unfold State.emit; split <;> rfl
@[simp] theorem emit_servers (s : State) (e : Event) : (s.emit e).servers = s.servers := by
  unfold State.emit; split <;> rfl
@[simp] theorem emit_starts (s : State) (e : Event) : (s.emit e).starts = s.starts := by
  unfold State.emit; split <;> rfl
@[simp] theorem emit_phase (s : State) (e : Event) : (s.emit e).phase = s.phase := by
  unfold State.emit; split <;> rfl

theorem emit_told (s : State) (e : Event) :
    (s.emit e).told = s.told ++ if s.queue.length < 64 then [e] else [] := by
  unfold State.emit State.told; split <;> simp

theorem numbers (os : List Op) : (run os).numbers = truth os := by
  induction os using snoc_ind with
  | h0 => rfl
  | h1 os o ih =>
    rw [run_snoc]
    have key : truth (os ++ [o]) = ⟨_, _, _, _, _, _⟩ := rfl
    simp only [truth, latest_snoc, total_snoc] at key ⊢
    rw [truth] at ih
    cases o with
    | setTransitTunnels n => simp [State.step, ih, total_lt, Nat.mod_mod, total]
    | addTransitBandwidth n => simp [State.step, ih, total]
    | setRouters n => simp [State.step, ih, total]
    | addBandwidth n => simp [State.step, ih, total]
    | addTunnels b f => simp [State.step, ih, total]
    | start d => simp only [State.step]; split <;> simp [ih, total]
    | poll t => simp only [State.step]; split <;> simp [ih, total, State.drain, State.tick]
    | shutdown => simp only [State.step]; split <;> simp [ih, total]
    | read => simp only [State.step]; split <;> simp [ih, total]

/-- What a step adds to the events. -/
def added (s : State) (o : Op) : List Event :=
  if s.queue.length < 64 then
    match o, s.phase with
    | .poll true, _ => [.status s.drain.clients s.drain.servers s.numbers]
    | .shutdown, .active => [.shuttingDown]
    | .shutdown, .shuttingDown => [.shutDown]
    | _, _ => []
  else []

theorem told_step (s : State) (o : Op) : (s.step o).told = s.told ++ added s o := by
  cases o with
  | poll t =>
    cases t with
    | true =>
      show (s.drain.tick).told = _
      unfold State.tick
      rw [emit_told]; rfl
    | false => simp [State.step, added]; rfl
  | shutdown =>
    unfold State.step added
    cases h : s.phase with
    | active => exact emit_told s _
    | shuttingDown => exact emit_told s _
    | shutDown => simp
  | read =>
    simp only [State.step, added]
    cases h : s.queue <;> simp [State.told, h]
  | start d => simp only [State.step, added]; split <;> simp [State.told]
  | _ => simp [State.step, added, State.told]

theorem filterMap_ext (f g : Nat → Option Numbers) (l : List Nat) (h : ∀ i ∈ l, f i = g i) :
    l.filterMap f = l.filterMap g := by
  induction l with
  | nil => rfl
  | cons a l ih =>
    rw [List.filterMap_cons, List.filterMap_cons, h a (by simp),
      ih fun i hi => h i (List.mem_cons_of_mem _ hi)]

theorem ticks_snoc (os : List Op) (o : Op) :
    ticks (os ++ [o]) = ticks os ++ if o = .poll true then [truth os] else [] := by
  unfold ticks
  rw [List.length_append, List.length_singleton, List.range_succ, List.filterMap_append]
  congr 1
  · refine filterMap_ext _ _ _ fun i hi => ?_
    have hi := List.mem_range.1 hi
    rw [List.getElem?_append_left hi, List.take_append_of_le_length (by omega)]
  · simp only [List.filterMap_cons, List.filterMap_nil]
    rw [List.getElem?_append_right (Nat.le_refl _)]
    simp only [Nat.sub_self, List.getElem?_cons_zero, List.take_left, Option.some.injEq]
    split <;> rename_i h <;> split at h <;> simp_all

theorem statuses_added (s : State) (o : Op) :
    statuses (added s o) = if s.queue.length < 64 ∧ o = .poll true then [s.numbers] else [] := by
  unfold added
  by_cases h : s.queue.length < 64
  · rw [if_pos h]
    cases o with
    | poll t => cases t <;> simp [statuses, h]
    | shutdown => cases s.phase <;> simp [statuses]
    | _ => simp [statuses]
  · simp [h, statuses]

/-- **C194**: the numbers in the status events, in order of their events, are those of the moments
at which the timer fired: the transit tunnels and the routers last set, and the sums of all that was
added to the others, in 64 bits. -/
theorem C194_numbers (os : List Op) : statuses (run os).told <+ ticks os := by
  induction os using snoc_ind with
  | h0 => exact .slnil
  | h1 os o ih =>
    rw [run_snoc, told_step, ticks_snoc]
    unfold statuses at ih ⊢
    rw [List.filterMap_append]
    refine ih.append ?_
    have := statuses_added (run os) o
    unfold statuses at this
    rw [this, numbers]
    by_cases h : o = .poll true
    · simp only [h, and_true, if_true]; split
      · exact .refl _
      · exact List.nil_sublist _
    · simp [h]

/-- **C194**: and there is one for each time the timer fires, as long as the program is never 64
events behind at such a moment. -/
theorem C194_each (os : List Op)
    (hroom : ∀ a b, os = a ++ .poll true :: b → (run a).queue.length < 64) :
    statuses (run os).told = ticks os := by
  induction os using snoc_ind with
  | h0 => rfl
  | h1 os o ih =>
    have ih := ih fun a b e => hroom a (b ++ [o]) (by simp [e])
    rw [run_snoc, told_step, ticks_snoc, ← ih]
    have := statuses_added (run os) o
    unfold statuses at this ⊢
    rw [List.filterMap_append, this, numbers]
    by_cases h : o = .poll true
    · rw [if_pos ⟨hroom os [] (by rw [h]), h⟩, if_pos h]
    · simp [h]

/-- **C194**: a status is made at once when the timer fires, with the numbers of that moment. -/
theorem C194_now (os : List Op) (h : (run os).queue.length < 64) :
    ∃ c s, (run (os ++ [.poll true])).queue = (run os).queue ++ [.status c s (truth os)] := by
  refine ⟨(run os).drain.clients, (run os).drain.servers, ?_⟩
  rw [run_snoc, ← numbers]
  show State.queue (State.emit _ _) = _
  unfold State.emit
  split
  · rfl
  · rename_i h'; exact absurd h h'

/-! ### Destinations -/

/-- The destinations on their way. -/
def pendingClients (s : State) : List String :=
  s.clients ++ s.starts.filterMap Start.client?
def pendingServers (s : State) : List (String × String) :=
  s.servers ++ s.starts.filterMap Start.server?

theorem clientsIn_append (a b : List Event) : clientsIn (a ++ b) = clientsIn a ++ clientsIn b := by
  simp [clientsIn]
theorem serversIn_append (a b : List Event) : serversIn (a ++ b) = serversIn a ++ serversIn b := by
  simp [serversIn]

/-- The channel a step needs is not full. -/
def roomy (s : State) : Op → Bool
  | .start _ => decide (s.starts.length < 64)
  | .poll true => decide (s.queue.length < 64)
  | _ => true

theorem clients_step (s : State) (o : Op) :
    clientsIn (added s o) ++ pendingClients (s.step o) =
      if roomy s o then pendingClients s ++ startedClients [o]
      else if o = .poll true then [] else pendingClients s := by
  cases o with
  | poll t =>
    cases t with
    | true =>
      by_cases h : s.queue.length < 64
      · simp [added, roomy, h, clientsIn, pendingClients, State.step, State.tick, State.drain,
          startedClients]
      · simp [added, roomy, h, clientsIn, pendingClients, State.step, State.tick, State.drain]
    | false =>
      simp [added, roomy, clientsIn, pendingClients, State.step, State.drain, startedClients]
  | shutdown =>
    have h1 : clientsIn (added s .shutdown) = [] := by
      unfold added; split
      · cases s.phase <;> rfl
      · rfl
    rw [h1]
    simp only [State.step, roomy, if_true]
    cases s.phase <;> simp [pendingClients, startedClients]
  | read =>
    simp only [State.step, added, roomy, if_true]
    cases h : s.queue <;> simp [pendingClients, clientsIn, startedClients]
  | start d =>
    by_cases h : s.starts.length < 64
    · cases d <;> simp [added, roomy, h, clientsIn, pendingClients, State.step, startedClients,
        Start.client?]
    · simp [added, roomy, h, clientsIn, pendingClients, State.step]
  | _ => simp [State.step, added, roomy, pendingClients, clientsIn, startedClients]

theorem servers_step (s : State) (o : Op) :
    serversIn (added s o) ++ pendingServers (s.step o) =
      if roomy s o then pendingServers s ++ startedServers [o]
      else if o = .poll true then [] else pendingServers s := by
  cases o with
  | poll t =>
    cases t with
    | true =>
      by_cases h : s.queue.length < 64
      · simp [added, roomy, h, serversIn, pendingServers, State.step, State.tick, State.drain,
          startedServers]
      · simp [added, roomy, h, serversIn, pendingServers, State.step, State.tick, State.drain]
    | false =>
      simp [added, roomy, serversIn, pendingServers, State.step, State.drain, startedServers]
  | shutdown =>
    have h1 : serversIn (added s .shutdown) = [] := by
      unfold added; split
      · cases s.phase <;> rfl
      · rfl
    rw [h1]
    simp only [State.step, roomy, if_true]
    cases s.phase <;> simp [pendingServers, startedServers]
  | read =>
    simp only [State.step, added, roomy, if_true]
    cases h : s.queue <;> simp [pendingServers, serversIn, startedServers]
  | start d =>
    by_cases h : s.starts.length < 64
    · cases d <;> simp [added, roomy, h, serversIn, pendingServers, State.step, startedServers,
        Start.server?]
    · simp [added, roomy, h, serversIn, pendingServers, State.step]
  | _ => simp [State.step, added, roomy, pendingServers, serversIn, startedServers]

theorem once (os : List Op) :
    clientsIn (run os).told ++ pendingClients (run os) <+ startedClients os ∧
    serversIn (run os).told ++ pendingServers (run os) <+ startedServers os := by
  induction os using snoc_ind with
  | h0 => exact ⟨.slnil, .slnil⟩
  | h1 os o ih =>
    rw [run_snoc, told_step, clientsIn_append, serversIn_append, List.append_assoc,
      List.append_assoc, clients_step, servers_step]
    have e1 : startedClients (os ++ [o]) = startedClients os ++ startedClients [o] := by
      simp [startedClients]
    have e2 : startedServers (os ++ [o]) = startedServers os ++ startedServers [o] := by
      simp [startedServers]
    rw [e1, e2]
    split
    · rw [← List.append_assoc, ← List.append_assoc]
      exact ⟨ih.1.append (.refl _), ih.2.append (.refl _)⟩
    · split
      · rw [List.append_nil, List.append_nil]
        exact ⟨((List.sublist_append_left _ _).trans ih.1).trans (List.sublist_append_left _ _),
          ((List.sublist_append_left _ _).trans ih.2).trans (List.sublist_append_left _ _)⟩
      · exact ⟨ih.1.trans (List.sublist_append_left _ _), ih.2.trans (List.sublist_append_left _ _)⟩

/-- **C195**: the status events tell of destinations that were started, each at most once and in the
order in which they were started. -/
theorem C195_once (os : List Op) :
    clientsIn (run os).seen <+ startedClients os ∧ serversIn (run os).seen <+ startedServers os := by
  have h := once os
  unfold State.told at h
  rw [clientsIn_append, serversIn_append, List.append_assoc, List.append_assoc] at h
  exact ⟨(List.sublist_append_left _ _).trans h.1, (List.sublist_append_left _ _).trans h.2⟩

/-- **C195**, in part: and they tell of every destination that was started before the timer fired
last, provided that no channel was full when it was needed: never 64 destinations started since the
router was last polled, and never 64 events unread when the timer fired. -/
theorem C195_all_partial (os : List Op)
    (hstart : ∀ a d b, os ++ [.poll true] = a ++ .start d :: b → (run a).starts.length < 64)
    (htick : ∀ a b, os ++ [.poll true] = a ++ .poll true :: b → (run a).queue.length < 64) :
    clientsIn (run (os ++ [.poll true])).told = startedClients os ∧
    serversIn (run (os ++ [.poll true])).told = startedServers os := by
  have H : ∀ l, (∀ a d b, l = a ++ .start d :: b → (run a).starts.length < 64) →
      (∀ a b, l = a ++ .poll true :: b → (run a).queue.length < 64) →
      clientsIn (run l).told ++ pendingClients (run l) = startedClients l ∧
      serversIn (run l).told ++ pendingServers (run l) = startedServers l := by
    intro l
    induction l using snoc_ind with
    | h0 => exact fun _ _ => ⟨rfl, rfl⟩
    | h1 l o ih =>
      intro h1 h2
      have ih := ih (fun a d b e => h1 a d (b ++ [o]) (by simp [e]))
        (fun a b e => h2 a (b ++ [o]) (by simp [e]))
      have hr : roomy (run l) o = true := by
        unfold roomy
        split
        · exact decide_eq_true (h1 l _ [] rfl)
        · exact decide_eq_true (h2 l [] rfl)
        · rfl
      rw [run_snoc, told_step, clientsIn_append, serversIn_append, List.append_assoc,
        List.append_assoc, clients_step, servers_step, if_pos hr, if_pos hr, ← List.append_assoc,
        ← List.append_assoc, ih.1, ih.2]
      simp [startedClients, startedServers]
  have h := H _ hstart htick
  have e1 : startedClients (os ++ [.poll true]) = startedClients os := by simp [startedClients]
  have e2 : startedServers (os ++ [.poll true]) = startedServers os := by simp [startedServers]
  have p1 : pendingClients (run (os ++ [.poll true])) = [] := by
    rw [run_snoc]; simp [pendingClients, State.step, State.tick, State.drain]
  have p2 : pendingServers (run (os ++ [.poll true])) = [] := by
    rw [run_snoc]; simp [pendingServers, State.step, State.tick, State.drain]
  rw [p1, p2, e1, e2, List.append_nil, List.append_nil] at h
  exact h

theorem never {n : String} (os : List Op) : ∀ (s : State), n ∉ clientsIn s.told →
    n ∉ pendingClients s → Op.start (.client n) ∉ os → n ∉ clientsIn (os.foldl State.step s).told := by
  induction os with
  | nil => intro s h _ _; exact h
  | cons o os ih =>
    intro s h1 h2 h3
    have e := clients_step s o
    have : n ∉ clientsIn (added s o) ++ pendingClients (s.step o) := by
      rw [e]
      split
      · rw [List.mem_append]
        rintro (h | h)
        · exact h2 h
        · obtain ⟨x, hx, hy⟩ := List.mem_filterMap.1 h
          simp only [List.mem_singleton] at hx
          subst hx
          split at hy
          · simp only [Option.some.injEq] at hy; subst hy; exact h3 (List.mem_cons_self)
          · cases hy
      · split
        · simp
        · exact h2
    rw [List.mem_append, not_or] at this
    refine ih _ ?_ this.2 fun h => h3 (List.mem_cons_of_mem _ h)
    rw [told_step, clientsIn_append, List.mem_append, not_or]
    exact ⟨h1, this.1⟩

/-- **C195**, violated: when the program has 64 events to read as the timer fires, every destination
that came up since the last status is never told of, however long the program goes on reading. -/
theorem C195_unread_violated (os os' : List Op) (n : String) (h : 64 ≤ (run os).queue.length)
    (hn : n ∉ clientsIn (run os).told) (hn' : .start (.client n) ∉ os') :
    n ∉ clientsIn (run (os ++ .poll true :: os')).told := by
  have e : run (os ++ .poll true :: os') = os'.foldl State.step (run (os ++ [.poll true])) := by
    simp [run, List.foldl_append]
  rw [e]
  refine never os' _ ?_ ?_ hn'
  · rw [run_snoc, told_step]
    have : ¬ (run os).queue.length < 64 := by omega
    simpa [added, this] using hn
  · rw [run_snoc]; simp [pendingClients, State.step, State.tick, State.drain]

/-- **C195**, violated: so is a destination that starts when 64 others have started since the router
was last polled. -/
theorem C195_burst_violated (os os' : List Op) (n : String) (h : 64 ≤ (run os).starts.length)
    (hn : .start (.client n) ∉ os) (hn' : .start (.client n) ∉ os') :
    n ∉ clientsIn (run (os ++ .start (.client n) :: os')).told := by
  have e : run (os ++ .start (.client n) :: os') = os'.foldl State.step (run os) := by
    have : (run os).step (.start (.client n)) = run os := by
      simp only [State.step]; rw [if_neg (by omega)]
    have h2 : run (os ++ .start (.client n) :: os') =
        os'.foldl State.step ((run os).step (.start (.client n))) := by
      simp [run, List.foldl_append]
    rw [h2, this]
  rw [e]
  have h0 : n ∉ startedClients os := by
    intro hh
    obtain ⟨x, hx, hy⟩ := List.mem_filterMap.1 hh
    split at hy
    · simp only [Option.some.injEq] at hy; subst hy; exact hn hx
    · cases hy
  have h1 : n ∉ clientsIn (run os).told ++ pendingClients (run os) := fun hh =>
    h0 ((once os).1.subset hh)
  rw [List.mem_append, not_or] at h1
  exact never os' _ h1.1 h1.2 hn'

/-! ### The end -/

/-- **C196**: whatever is asked how often, each of the two events of the end is made at most once, and the second only
after the end was asked for twice. -/
theorem C196_at_most_once (os : List Op) :
    (run os).told.count .shuttingDown ≤ 1 ∧ (run os).told.count .shutDown ≤ 1 ∧
    (os.count .shutdown ≤ 1 → (run os).told.count .shutDown = 0) := by
  have H : (run os).told.count .shuttingDown ≤ (if (run os).phase = .active then 0 else 1) ∧
      (run os).told.count .shutDown ≤ (if (run os).phase = .shutDown then 1 else 0) ∧
      ((run os).phase = .active ↔ os.count .shutdown = 0) ∧
      ((run os).phase = .shutDown ↔ 2 ≤ os.count .shutdown) := by
    induction os using snoc_ind with
    | h0 => decide
    | h1 os o ih =>
      obtain ⟨h1, h2, h3, h4⟩ := ih
      rw [run_snoc, told_step, List.count_append, List.count_append, List.count_append]
      cases o with
      | shutdown =>
        have e : List.count Op.shutdown [Op.shutdown] = 1 := by decide
        rw [e]
        cases h : (run os).phase with
        | active =>
          simp only [h, reduceCtorEq, eq_self, if_true, if_false, true_iff, false_iff] at h1 h2 h3 h4
          have ea : ((run os).step .shutdown).phase = .shuttingDown := by simp [State.step, h]
          have eb : (added (run os) .shutdown).count .shuttingDown ≤ 1 ∧ (added (run os) .shutdown).count .shutDown = 0 := by
            simp only [added, h]; split <;> decide
          rw [ea]; simp only [reduceCtorEq, eq_self, true_and, if_false, false_iff]; omega
        | shuttingDown =>
          simp only [h, reduceCtorEq, eq_self, if_false, false_iff] at h1 h2 h3 h4
          have ea : ((run os).step .shutdown).phase = .shutDown := by simp [State.step, h]
          have eb : (added (run os) .shutdown).count .shuttingDown = 0 ∧ (added (run os) .shutdown).count .shutDown ≤ 1 := by
            simp only [added, h]; split <;> decide
          rw [ea]; simp only [reduceCtorEq, eq_self, true_and, if_true, if_false, false_iff, true_iff]; omega
        | shutDown =>
          simp only [h, reduceCtorEq, eq_self, if_true, if_false, false_iff, true_iff] at h1 h2 h3 h4
          have ea : ((run os).step .shutdown).phase = .shutDown := by simp [State.step, h]
          have eb : (added (run os) .shutdown).count .shuttingDown = 0 ∧ (added (run os) .shutdown).count .shutDown = 0 := by
            simp only [added, h]; split <;> decide
          rw [ea]; simp only [reduceCtorEq, eq_self, true_and, if_true, if_false, false_iff, true_iff]; omega
      | poll t =>
        have ea : ((run os).step (.poll t)).phase = (run os).phase := by
          cases t <;> simp [State.step, State.drain, State.tick]
        have eb : (added (run os) (.poll t)).count .shuttingDown = 0 ∧ (added (run os) (.poll t)).count .shutDown = 0 := by
          cases t <;> cases h : (run os).phase <;> simp only [added, h] <;> split <;> simp
        have e : List.count Op.shutdown [Op.poll t] = 0 := by simp
        rw [ea, eb.1, eb.2, e]; exact ⟨h1, h2, h3, h4⟩
      | start d =>
        have ea : ((run os).step (.start d)).phase = (run os).phase := by simp only [State.step]; split <;> rfl
        have eb : added (run os) (.start d) = [] := by simp [added]
        have e : List.count Op.shutdown [Op.start d] = 0 := by simp
        rw [ea, eb, e]; exact ⟨h1, h2, h3, h4⟩
      | read =>
        have ea : ((run os).step .read).phase = (run os).phase := by simp only [State.step]; split <;> rfl
        have eb : added (run os) .read = [] := by simp [added]
        have e : List.count Op.shutdown [Op.read] = 0 := by decide
        rw [ea, eb, e]; exact ⟨h1, h2, h3, h4⟩
      | _ =>
        simp only [added, ite_self, List.count_nil, Nat.add_zero, State.step]
        simpa using ⟨h1, h2, h3, h4⟩
  obtain ⟨h1, h2, h3, h4⟩ := H
  refine ⟨Nat.le_trans h1 (by split <;> omega), Nat.le_trans h2 (by split <;> omega), fun h => ?_⟩
  rw [if_neg (fun x => by have := h4.1 x; omega)] at h2
  omega

/-- Asked three times. -/
example : (run [.shutdown, .shutdown, .shutdown]).told = [.shuttingDown, .shutDown] := by decide +kernel

/-! ## The cases occur -/

example : (run [.setRouters 3, .addBandwidth 10, .addBandwidth 20, .start (.client "irc"),
    .start (.server "web" "abc"), .poll true, .setRouters 2, .addTunnels 4 1, .poll true, .read]) =
    { numbers := ⟨0, 0, 2, 30, 4, 1⟩,
      queue := [.status [] [] ⟨0, 0, 2, 30, 4, 1⟩],
      seen := [.status ["irc"] [("web", "abc")] ⟨0, 0, 3, 30, 0, 0⟩] } := by decide +kernel
example := C194_each [.setRouters 3, .poll true] (by
  intro a b e
  match a, e with
  | [_], e => simp only [List.cons_append, List.nil_append, List.cons.injEq] at e; rw [← e.1]; decide
  | [_, _], e => simp at e
  | _ :: _ :: _ :: _, e => simp at e)
/-- The program sleeps for 64 rounds; then a destination comes up. -/
example := C195_unread_violated (List.replicate 64 (.poll true) ++ [.start (.client "irc")])
  [.read, .read, .poll true, .read] "irc" (by decide +kernel) (by decide +kernel) (by decide)
example := C195_burst_violated (List.replicate 64 (.start (.client "a"))) [.poll true, .read] "irc"
  (by decide +kernel) (by decide +kernel) (by decide)

end Emissary.Events
