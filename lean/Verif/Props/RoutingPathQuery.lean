import Verif.Props.RoutingPathLease
/-!
# Routing paths: queries for lease sets
-/
namespace Emissary.RPath
open Emissary.I2np (Duration)

/-! ## C124: unreachable remotes -/

/-- What happens to a handle: it is polled, with events in its queue and maybe the answer to its query; or the owner asks for a path. `room`: a request
for a lease set fits in the command channel. -/
inductive HOp where
  | poll (now : Duration) (events : List Event) (answer : Option Bool)
  | path (now : Duration) (r : Rand) (room : Bool)
  | recreate (now : Duration) (r : Rand) (room : Bool)

/-- A handle with the answers it got so far, the number of requests it sent, and whether it has finished. -/
structure HLog where
  s : Hnd
  answers : List Bool := []
  asked : Nat := 0
  finished : Bool := false

/-- The handle waits for an answer. -/
def Query.waits : Query → Bool
  | .pending _ _ => true
  | .inactive _ => false

/-- One step; nothing happens to a handle that has finished. An answer comes only if the handle waits for one. -/
def hstep (chk : Bool) (x : HLog) (o : HOp) : HLog :=
  if x.finished then x else
  match o with
  | .poll now events answer =>
    let y := Hnd.poll { x.s with queue := events } now (fun _ => answer)
    { x with s := y.2, finished := y.1, answers := if x.s.query.waits then x.answers ++ answer.toList else x.answers }
  | .path now r room => let y := x.s.get now r (if room then some x.asked else none); { x with s := y.2.1, asked := if y.2.2 then x.asked + 1 else x.asked }
  | .recreate now r room => let y := x.s.recreate chk now r (if room then some x.asked else none); { x with s := y.2.1, asked := if y.2.2 then x.asked + 1 else x.asked }

/-- The number of failures at the end of a list of answers. -/
def failures (l : List Bool) : Nat := (l.reverse.takeWhile (· == false)).length

theorem failures_true (l : List Bool) : failures (l ++ [true]) = 0 := by simp [failures]
theorem failures_false (l : List Bool) : failures (l ++ [false]) = failures l + 1 := by simp [failures]

theorem event_query (s : Hnd) (now : Duration) (e : Event) : (s.event now e).query = s.query := by
  cases e <;> simp only [Hnd.event]
  · split
    · split <;> rfl
    · rfl
  · split
    · split <;> rfl
    · rfl
  · split <;> rfl
  · split <;> rfl

theorem events_query (now : Duration) (l : List Event) : ∀ s : Hnd, (l.foldl (fun s e => s.event now e) s).query = s.query := by
  induction l with
  | nil => intro s; rfl
  | cons e l ih => intro s; exact (ih _).trans (event_query s now e)

theorem tick_query (s : Hnd) (now : Duration) : (s.tick now).query = s.query := by
  unfold Hnd.tick
  split
  · split <;> rfl
  · rfl

theorem make_query (s : Hnd) (now : Duration) (r : Rand) (rid : Option Nat) :
    ((s.make now r rid).2.2 = false ∧ (s.make now r rid).2.1.query = s.query) ∨ ∃ n i, s.query = .inactive n ∧ (s.make now r rid).2.2 = true ∧ (s.make now r rid).2.1.query = .pending (n + 1) i := by
  unfold Hnd.make
  split
  · exact .inl ⟨rfl, rfl⟩
  · split
    · exact .inl ⟨rfl, rfl⟩
    · split
      · rename_i h; exact .inr ⟨_, _, h, rfl, rfl⟩
      · exact .inl ⟨rfl, rfl⟩

theorem get_query (s : Hnd) (now : Duration) (r : Rand) (rid : Option Nat) :
    ((s.get now r rid).2.2 = false ∧ (s.get now r rid).2.1.query = s.query) ∨ ∃ n i, s.query = .inactive n ∧ (s.get now r rid).2.2 = true ∧ (s.get now r rid).2.1.query = .pending (n + 1) i := by
  unfold Hnd.get
  split
  · exact .inl ⟨rfl, rfl⟩
  · exact make_query s now r rid

theorem recreate_query (chk : Bool) (s : Hnd) (now : Duration) (r : Rand) (rid : Option Nat) :
    ((s.recreate chk now r rid).2.2 = false ∧ (s.recreate chk now r rid).2.1.query = s.query) ∨
      ∃ n i, s.query = .inactive n ∧ (s.recreate chk now r rid).2.2 = true ∧ (s.recreate chk now r rid).2.1.query = .pending (n + 1) i := by
  unfold Hnd.recreate
  split
  · exact make_query s now r rid
  · dsimp only
    split
    · exact .inl ⟨rfl, rfl⟩
    · split
      · exact .inl ⟨rfl, rfl⟩
      · exact make_query _ now r rid

/-- The failures are counted, and one answer is missing if the handle waits. -/
def Counted (x : HLog) : Prop :=
  if x.finished then failures x.answers = 3 ∧ x.asked = x.answers.length
  else match x.s.query with
    | .inactive n => n = failures x.answers ∧ n < 3 ∧ x.asked = x.answers.length
    | .pending n _ => n = failures x.answers + 1 ∧ n ≤ 3 ∧ x.asked = x.answers.length + 1

theorem counted_step (chk : Bool) {x : HLog} (h : Counted x) (o : HOp) : Counted (hstep chk x o) := by
  unfold hstep
  split
  · exact h
  · rename_i hf
    rw [Counted, if_neg hf] at h
    cases o with
    | poll now events answer =>
      simp only [Hnd.poll, Hnd.answer]
      cases hq : x.s.query with
      | inactive n =>
        rw [hq] at h
        simp only [Counted, Query.waits, Bool.false_eq_true, if_false, events_query, tick_query, hq]
        exact h
      | pending n i =>
        rw [hq] at h
        cases answer with
        | none =>
          simp only [Counted, Query.waits, Bool.false_eq_true, if_false, if_true, events_query, tick_query, hq, Option.toList_none, List.append_nil]
          exact h
        | some b =>
          cases b with
          | true =>
            simp only [Counted, Query.waits, Bool.false_eq_true, if_false, if_true, events_query, tick_query, Option.toList_some, failures_true, List.length_append, List.length_singleton]
            exact ⟨trivial, by omega, h.2.2⟩
          | false =>
            simp only
            by_cases hn : n = maxQueries
            · rw [if_pos hn]
              simp only [Counted, Query.waits, if_true, Option.toList_some, failures_false, List.length_append, List.length_singleton]
              have : maxQueries = 3 := rfl
              exact ⟨by omega, h.2.2⟩
            · rw [if_neg hn]
              simp only [Counted, Query.waits, Bool.false_eq_true, if_false, if_true, events_query, tick_query, Option.toList_some, failures_false, List.length_append, List.length_singleton]
              have : maxQueries = 3 := rfl
              exact ⟨h.1, by omega, h.2.2⟩
    | path now r room =>
      simp only [Counted, hf, Bool.false_eq_true, if_false]
      rcases get_query x.s now r (if room = true then some x.asked else none) with ⟨h1, h2⟩ | ⟨n, i, h1, h2, h3⟩
      · rw [h1, h2]; simp only [Bool.false_eq_true, if_false]; exact h
      · rw [h2, h3]
        rw [h1] at h
        simp only [if_true]
        omega
    | recreate now r room =>
      simp only [Counted, hf, Bool.false_eq_true, if_false]
      rcases recreate_query chk x.s now r (if room = true then some x.asked else none) with ⟨h1, h2⟩ | ⟨n, i, h1, h2, h3⟩
      · rw [h1, h2]; simp only [Bool.false_eq_true, if_false]; exact h
      · rw [h2, h3]
        rw [h1] at h
        simp only [if_true]
        omega

theorem counted_run (chk : Bool) (ops : List HOp) : ∀ x : HLog, Counted x → Counted (ops.foldl (hstep chk) x) := by
  induction ops with
  | nil => intro x h; exact h
  | cons o ops ih => intro x h; exact ih _ (counted_step chk h o)

/-- C124: whatever happens, a handle gives up the remote exactly when three queries in a row have failed; and it never has more than one query out. -/
theorem C124_gives_up (chk : Bool) (d : Nat) (inb : List Lease) (out : List Nat) (exp : List (Nat × Duration)) (ops : List HOp) :
    let x := ops.foldl (hstep chk) { s := Hnd.new d inb out exp }
    (x.finished = true ↔ failures x.answers = 3) ∧ failures x.answers ≤ 3 ∧ x.answers.length ≤ x.asked ∧ x.asked ≤ x.answers.length + 1 := by
  have h := counted_run chk ops { s := Hnd.new d inb out exp } (by exact ⟨rfl, by decide, rfl⟩)
  generalize ops.foldl (hstep chk) _ = x at h
  dsimp only
  unfold Counted at h
  split at h
  · rename_i hf; exact ⟨⟨fun _ => h.1, fun _ => hf⟩, by omega, by omega, by omega⟩
  · rename_i hf
    split at h
    · exact ⟨⟨fun h => absurd h hf, fun h' => by omega⟩, by omega, by omega, by omega⟩
    · exact ⟨⟨fun h => absurd h hf, fun h' => by omega⟩, by omega, by omega, by omega⟩

/-- C124: a handle that has an outbound tunnel but no lease asks for the lease set, unless it has asked already or the command channel is full. -/
theorem C124_asks (s : Hnd) (hs : s.tunnels.Ok) (hp : s.path = none) (now : Duration) (r : Rand) (rid : Nat)
    (ho : ∃ id k, s.tunnels.get id = some k ∧ 0 < k.outScore now) (hi : ∀ id k, s.tunnels.get id = some k → k.inScore now = 0) :
    (s.get now r (some rid)).1 = none ∧ (s.get now r (some rid)).2.1.query.waits = true ∧ ((s.get now r (some rid)).2.2 = true ↔ s.query.waits = false) := by
  have h1 := C51_outbound_choice hs now r.out
  have h2 := C51_lease_choice hs now r.inb
  simp only [Hnd.get, hp, Hnd.make]
  cases e1 : selectOut s.tunnels now r.out with
  | none =>
    rw [e1] at h1
    obtain ⟨id, k, hk, hs⟩ := ho
    have := h1 id k hk
    omega
  | some o =>
    cases e2 : selectIn s.tunnels now r.inb with
    | some x =>
      rw [e2] at h2
      obtain ⟨k, hk, he, hlt, _⟩ := h2
      have := hi _ _ hk
      cases k <;> simp only [Kind.leaseEnd, Option.some.injEq, reduceCtorEq] at he
      all_goals
        subst he
        simp only [Kind.inScore, if_pos hlt] at this
        omega
    | none => cases hq : s.query <;> simp [Query.waits, hq]

/-- Three failures. -/
example : ((([.path 0 ⟨0, 0⟩ true, .poll 1 [] (some false), .path 2 ⟨0, 0⟩ true, .poll 3 [] (some true), .path 4 ⟨0, 0⟩ true, .poll 5 [] (some false), .path 6 ⟨0, 0⟩ true,
    .poll 7 [] (some false), .path 8 ⟨0, 0⟩ true, .poll 9 [] (some false)] : List HOp).foldl (hstep true) { s := Hnd.new 1 [] [7] [] }).finished,
   (([.path 0 ⟨0, 0⟩ true, .poll 1 [] (some false), .path 2 ⟨0, 0⟩ true, .poll 3 [] (some true), .path 4 ⟨0, 0⟩ true, .poll 5 [] (some false), .path 6 ⟨0, 0⟩ true,
    .poll 7 [] (some false)] : List HOp).foldl (hstep true) { s := Hnd.new 1 [] [7] [] }).finished) = (true, false) := by decide +kernel

/-! ## C125: one query for all -/

/-- Where the requests are: in the command channel, waiting at the manager, or answered. -/
structure QInv (s : Sys) : Prop where
  ok : s.pending.Ok
  cmd : ∀ d r, (d, r) ∈ s.cmds → r < s.nextRid ∧ s.answers.get r = none ∧ ∀ d' l, s.pending.get d' = some l → r ∉ l
  nd : (s.cmds.map (·.2)).Nodup
  pend : ∀ d l, s.pending.get d = some l → l ≠ [] ∧ l.Nodup ∧ ∀ r ∈ l, r < s.nextRid ∧ s.answers.get r = none
  sep : ∀ d d' l l' r, s.pending.get d = some l → s.pending.get d' = some l' → r ∈ l → r ∈ l' → d = d'
  ans : ∀ r b, s.answers.get r = some b → r < s.nextRid

theorem QInv.same {s s' : Sys} (h : QInv s) (h1 : s'.pending = s.pending) (h2 : s'.cmds = s.cmds) (h3 : s'.answers = s.answers) (h4 : s'.nextRid = s.nextRid) : QInv s' := by
  cases s; cases s'
  simp only at h1 h2 h3 h4
  subst h1 h2 h3 h4
  exact ⟨h.ok, h.cmd, h.nd, h.pend, h.sep, h.ans⟩

theorem reply_get (s : Sys) (rids : List Nat) (b : Bool) (r : Nat) : (s.reply rids b).answers.get r = if r ∈ rids then some b else s.answers.get r := by
  simp only [Sys.reply, AMap.get_puts]
  split
  · rename_i v hv
    have hm := AMap.get_mem hv
    simp only [List.mem_reverse, List.mem_map, Prod.mk.injEq] at hm
    obtain ⟨a, h1, rfl, rfl⟩ := hm
    rw [if_pos h1]
  · rename_i hn
    split
    · rename_i hm
      have : (r, b) ∈ (rids.map fun r => (r, b)).reverse := by simp [hm]
      have := get_isSome_of_mem this
      rw [hn] at this; cases this
    · rfl

theorem QInv.sent {s : Sys} (h : QInv s) (d : Nat) (b : Bool) : QInv (s.sent d b) := by
  unfold Sys.sent
  split
  · refine ⟨h.ok, ?_, ?_, ?_, h.sep, ?_⟩
    · intro d' r hm
      simp only [List.mem_append, List.mem_singleton, Prod.mk.injEq] at hm
      rcases hm with hm | ⟨_, rfl⟩
      · obtain ⟨h1, h2, h3⟩ := h.cmd d' r hm
        exact ⟨Nat.lt_succ_of_lt h1, h2, h3⟩
      · refine ⟨Nat.lt_succ_self _, ?_, ?_⟩
        · cases ha : s.answers.get s.nextRid with
          | none => rfl
          | some b => exact absurd (h.ans _ _ ha) (Nat.lt_irrefl _)
        · intro d' l hl hm; exact absurd ((h.pend d' l hl).2.2 _ hm).1 (Nat.lt_irrefl _)
    · simp only [List.map_append, List.map_cons, List.map_nil]
      rw [List.nodup_append]
      refine ⟨h.nd, by simp, ?_⟩
      intro a ha b hb
      simp only [List.mem_singleton] at hb
      subst hb
      obtain ⟨x, hx, rfl⟩ := List.mem_map.mp ha
      exact Nat.ne_of_lt (h.cmd x.1 x.2 hx).1
    · intro d' l hl
      obtain ⟨h1, h2, h3⟩ := h.pend d' l hl
      exact ⟨h1, h2, fun r hr => ⟨Nat.lt_succ_of_lt (h3 r hr).1, (h3 r hr).2⟩⟩
    · intro r b hr; exact Nat.lt_succ_of_lt (h.ans r b hr)
  · exact h

/-- The answer for everyone who waits for a destination. -/
theorem QInv.answer {s : Sys} (h : QInv s) (d : Nat) (rids : List Nat) (hp : s.pending.get d = some rids) (b : Bool) : QInv (Sys.reply { s with pending := s.pending.del d } rids b) := by
  have hg : ∀ d' l, AMap.get (s.pending.del d) d' = some l → d' ≠ d ∧ s.pending.get d' = some l := by
    intro d' l hl
    rw [AMap.get_del] at hl
    split at hl
    · cases hl
    · rename_i hne; exact ⟨hne, hl⟩
  refine ⟨AMap.ok_del h.ok _, ?_, h.nd, ?_, ?_, ?_⟩
  · intro d' r hm
    obtain ⟨h1, h2, h3⟩ := h.cmd d' r hm
    refine ⟨h1, ?_, fun d' l hl => h3 d' l (hg d' l hl).2⟩
    rw [reply_get, if_neg (h3 d rids hp)]; exact h2
  · intro d' l hl
    obtain ⟨hne, hl⟩ := hg d' l hl
    obtain ⟨h1, h2, h3⟩ := h.pend d' l hl
    refine ⟨h1, h2, fun r hr => ⟨(h3 r hr).1, ?_⟩⟩
    rw [reply_get, if_neg]
    · exact (h3 r hr).2
    · intro hr'; exact hne (h.sep d' d l rids r hl hp hr hr')
  · intro d1 d2 l1 l2 r hl1 hl2
    exact h.sep d1 d2 l1 l2 r (hg d1 l1 hl1).2 (hg d2 l2 hl2).2
  · intro r b' hr
    rw [reply_get] at hr
    split at hr
    · rename_i hm; exact ((h.pend d rids hp).2.2 r hm).1
    · exact h.ans r b' hr

theorem QInv.forget {s : Sys} (h : QInv s) (d : Nat) (hp : s.pending.get d = none) : QInv { s with pending := s.pending.del d } := by
  have hg : ∀ d' l, AMap.get (s.pending.del d) d' = some l → s.pending.get d' = some l := by
    intro d' l hl
    rw [AMap.get_del] at hl
    split at hl
    · cases hl
    · exact hl
  exact ⟨AMap.ok_del h.ok _, fun d' r hm => ⟨(h.cmd d' r hm).1, (h.cmd d' r hm).2.1, fun d'' l hl => (h.cmd d' r hm).2.2 d'' l (hg _ _ hl)⟩, h.nd,
    fun d' l hl => h.pend d' l (hg _ _ hl), fun d1 d2 l1 l2 r h1 h2 => h.sep d1 d2 l1 l2 r (hg _ _ h1) (hg _ _ h2), h.ans⟩

theorem qstep_inv {s : Sys} (chk : Bool) (h : QInv s) (o : Op) : QInv (step chk s o).2 := by
  cases o with
  | subscribe d => exact h.same rfl rfl rfl rfl
  | built i => exact h.same rfl rfl rfl rfl
  | expiring now i => exact h.same rfl rfl rfl rfl
  | expired i => exact h.same rfl rfl rfl rfl
  | leases now d r =>
    simp only [step, Sys.register]
    cases hp : s.pending.get d with
    | none =>
      cases r with
      | none => exact h.forget d hp
      | some l => exact (h.forget d hp).same rfl rfl rfl rfl
    | some rids =>
      cases r with
      | none => exact h.answer d rids hp false
      | some l => exact (h.answer d rids hp true).same rfl rfl rfl rfl
  | serve =>
    simp only [step, Sys.serve]
    split
    · exact h
    · rename_i d rid cmds hc
      have hrest : ∀ x ∈ cmds, x ∈ s.cmds := fun x hx => by rw [hc]; exact List.mem_cons_of_mem _ hx
      have hnd := h.nd
      rw [hc, List.map_cons, List.nodup_cons] at hnd
      obtain ⟨c1, c2, c3⟩ := h.cmd d rid (by rw [hc]; exact List.mem_cons_self)
      have hne : ∀ d' r, (d', r) ∈ cmds → r ≠ rid := fun d' r hm e => hnd.1 (e ▸ List.mem_map_of_mem (f := (·.2)) hm)
      have key : ∀ l0, (s.pending.get d = some l0 ∨ (s.pending.get d = none ∧ l0 = [])) → QInv { s with cmds := cmds, pending := s.pending.put d (l0 ++ [rid]) } := by
        intro l0 hl0
        have hmem : ∀ d' l r, AMap.get (s.pending.put d (l0 ++ [rid])) d' = some l → r ∈ l → (r = rid ∧ d' = d) ∨ ∃ l', s.pending.get d' = some l' ∧ r ∈ l' := by
          intro d' l r hl hr
          rw [AMap.get_put] at hl
          split at hl
          · rename_i e
            cases hl
            rcases List.mem_append.mp hr with hr | hr
            · rcases hl0 with h0 | ⟨_, h0⟩
              · exact .inr ⟨l0, e ▸ h0, hr⟩
              · rw [h0] at hr; cases hr
            · exact .inl ⟨List.mem_singleton.mp hr, e⟩
          · exact .inr ⟨l, hl, hr⟩
        refine ⟨AMap.ok_put h.ok _ _, ?_, hnd.2, ?_, ?_, h.ans⟩
        · intro d' r hm
          obtain ⟨h1, h2, h3⟩ := h.cmd d' r (hrest _ hm)
          refine ⟨h1, h2, ?_⟩
          intro d'' l hl hr
          rcases hmem d'' l r hl hr with ⟨e, _⟩ | ⟨l', hl', hr'⟩
          · exact hne d' r hm e
          · exact h3 d'' l' hl' hr'
        · intro d' l hl
          refine ⟨?_, ?_, ?_⟩
          · rw [AMap.get_put] at hl
            split at hl
            · cases hl; simp
            · exact (h.pend d' l hl).1
          · rw [AMap.get_put] at hl
            split at hl
            · cases hl
              rw [List.nodup_append]
              refine ⟨?_, by simp, ?_⟩
              · rcases hl0 with h0 | ⟨_, h0⟩
                · exact (h.pend d l0 h0).2.1
                · rw [h0]; exact List.nodup_nil
              · intro a ha b hb e
                rw [List.mem_singleton.mp hb] at e
                rcases hl0 with h0 | ⟨_, h0⟩
                · exact c3 d l0 h0 (e ▸ ha)
                · rw [h0] at ha; cases ha
            · exact (h.pend d' l hl).2.1
          · intro r hr
            rcases hmem d' l r hl hr with ⟨rfl, _⟩ | ⟨l', hl', hr'⟩
            · exact ⟨c1, c2⟩
            · exact (h.pend d' l' hl').2.2 r hr'
        · intro d1 d2 l1 l2 r hl1 hl2 hr1 hr2
          rcases hmem d1 l1 r hl1 hr1 with ⟨e1, e1'⟩ | ⟨l1', hl1', hr1'⟩
          · rcases hmem d2 l2 r hl2 hr2 with ⟨e2, e2'⟩ | ⟨l2', hl2', hr2'⟩
            · rw [e1', e2']
            · exact absurd (e1 ▸ hr2') (c3 d2 l2' hl2')
          · rcases hmem d2 l2 r hl2 hr2 with ⟨e2, e2'⟩ | ⟨l2', hl2', hr2'⟩
            · exact absurd (e2 ▸ hr1') (c3 d1 l1' hl1')
            · exact h.sep d1 d2 l1' l2' r hl1' hl2' hr1' hr2'
      split
      · rename_i rids hp; exact key rids (.inl hp)
      · rename_i hp; exact key [] (.inr ⟨hp, rfl⟩)
  | poll i now =>
    simp only [step]
    split
    · split
      · exact h.same rfl rfl rfl rfl
      · exact h
    · exact h
  | path i now r =>
    simp only [step]
    split
    · rename_i x hx
      split
      · exact (h.same (s' := { s with handles := s.handles.set i (x.get now r s.rid).2.1 }) rfl rfl rfl rfl).sent _ _
      · exact h
    · exact h
  | recreate i now r =>
    simp only [step]
    split
    · rename_i x hx
      split
      · exact (h.same (s' := { s with handles := s.handles.set i (x.recreate chk now r s.rid).2.1 }) rfl rfl rfl rfl).sent _ _
      · exact h
    · exact h
  | drop i =>
    simp only [step]
    split
    · exact h.same rfl rfl rfl rfl
    · exact h

theorem qrun_inv (chk : Bool) (ops : List Op) : ∀ {s : Sys}, QInv s → QInv (run chk s ops) := by
  induction ops with
  | nil => intro s h; exact h
  | cons o ops ih => intro s h; exact ih (qstep_inv chk h o)

theorem qinv_new (out : List Nat) : QInv (Sys.new out) :=
  ⟨AMap.ok_nil, by simp [Sys.new], by simp [Sys.new], by simp [Sys.new], by simp [Sys.new], by simp [Sys.new]⟩

/-- The operation is no news about `d`. -/
def NoNews (d : Nat) (o : Op) : Prop := ∀ now r, o ≠ .leases now d r

/-- Who waits for `d` goes on waiting until there is news about `d`. -/
theorem waits_step {s : Sys} (chk : Bool) {d : Nat} {l : List Nat} (hp : s.pending.get d = some l) {o : Op} (ho : NoNews d o) :
    ∃ l', (step chk s o).2.pending.get d = some l' ∧ ∀ r ∈ l, r ∈ l' := by
  have same : ∀ s' : Sys, s'.pending = s.pending → ∃ l', s'.pending.get d = some l' ∧ ∀ r ∈ l, r ∈ l' := fun s' e => ⟨l, by rw [e]; exact hp, fun _ h => h⟩
  have snt : ∀ (s' : Sys) d b, s'.pending = s.pending → (s'.sent d b).pending = s.pending := by
    intro s' d b e; unfold Sys.sent; split <;> exact e
  cases o with
  | subscribe d => exact same _ rfl
  | built i => exact same _ rfl
  | expiring now i => exact same _ rfl
  | expired i => exact same _ rfl
  | leases now d' r =>
    have hne : d ≠ d' := fun e => ho now r (by rw [e])
    have hdel : AMap.get (s.pending.del d') d = some l := by rw [AMap.get_del, if_neg hne]; exact hp
    simp only [step, Sys.register]
    cases s.pending.get d' <;> cases r <;> exact ⟨l, hdel, fun _ h => h⟩
  | serve =>
    simp only [step, Sys.serve]
    split
    · exact same _ rfl
    · rename_i d' rid cmds hc
      split
      · rename_i rids hr
        simp only [AMap.get_put]
        by_cases e : d = d'
        · subst e
          rw [hp] at hr; cases hr
          exact ⟨_, if_pos rfl, fun r h => List.mem_append_left _ h⟩
        · exact ⟨l, by rw [if_neg e]; exact hp, fun _ h => h⟩
      · rename_i hr
        simp only [AMap.get_put]
        by_cases e : d = d'
        · subst e; rw [hp] at hr; cases hr
        · exact ⟨l, by rw [if_neg e]; exact hp, fun _ h => h⟩
  | poll i now =>
    simp only [step]
    split
    · split <;> exact same _ rfl
    · exact same _ rfl
  | path i now r =>
    simp only [step]
    split
    · split
      · exact same _ (snt _ _ _ rfl)
      · exact same _ rfl
    · exact same _ rfl
  | recreate i now r =>
    simp only [step]
    split
    · split
      · exact same _ (snt _ _ _ rfl)
      · exact same _ rfl
    · exact same _ rfl
  | drop i =>
    simp only [step]
    split <;> exact same _ rfl

theorem waits_run (chk : Bool) {d : Nat} (mid : List Op) (hm : ∀ o ∈ mid, NoNews d o) : ∀ {s : Sys} {l : List Nat}, s.pending.get d = some l →
    ∃ l', (run chk s mid).pending.get d = some l' ∧ ∀ r ∈ l, r ∈ l' := by
  induction mid with
  | nil => intro s l h; exact ⟨l, h, fun _ h => h⟩
  | cons o mid ih =>
    intro s l h
    obtain ⟨l1, h1, h2⟩ := waits_step chk h (hm o List.mem_cons_self)
    obtain ⟨l2, h3, h4⟩ := ih (fun o ho => hm o (List.mem_cons_of_mem _ ho)) h1
    exact ⟨l2, h3, fun r hr => h4 r (h2 r hr)⟩

theorem serve_pending {s : Sys} (chk : Bool) {d rid : Nat} {cmds : List (Nat × Nat)} (hc : s.cmds = (d, rid) :: cmds) :
    ∃ l, (step chk s .serve).2.pending.get d = some l ∧ rid ∈ l := by
  simp only [step, Sys.serve, hc]
  split
  · rename_i rids _; exact ⟨rids ++ [rid], by simp only [AMap.get_put, if_true], by simp⟩
  · exact ⟨[rid], by simp only [AMap.get_put, if_true], by simp⟩

/-- C125: there is at most one query for a destination at a time: between two queries for the same destination there is news about it. -/
theorem C125_one_query (chk : Bool) (s : Sys) (d : Nat) (mid : List Op) (h1 : (step chk s .serve).1 = .query (some d))
    (h2 : (step chk (run chk (step chk s .serve).2 mid) .serve).1 = .query (some d)) : ∃ o ∈ mid, ∃ now r, o = .leases now d r := by
  by_cases h : ∀ o ∈ mid, NoNews d o
  · exfalso
    have : ∃ rid cmds, s.cmds = (d, rid) :: cmds := by
      simp only [step, Sys.serve] at h1
      split at h1
      · cases h1
      · rename_i d' rid cmds hc
        split at h1
        · cases h1
        · cases h1; exact ⟨rid, cmds, hc⟩
    obtain ⟨rid, cmds, hc⟩ := this
    obtain ⟨l, hl, _⟩ := serve_pending chk hc
    obtain ⟨l', hl', _⟩ := waits_run chk mid h hl
    generalize run chk (step chk s .serve).2 mid = s' at *
    simp only [step, Sys.serve] at h2
    split at h2
    · cases h2
    · split at h2
      · cases h2
      · rename_i hn
        cases h2
        rw [hl'] at hn; cases hn
  · simp only [NoNews, ne_eq] at h
    grind

/-- C125: every request is answered by the next news about its destination, and not before: with success if there is a lease set, with failure if the
query has failed. `rid` is the channel for the answer. -/
theorem C125_answered (chk : Bool) (out : List Nat) (pre mid : List Op) (d rid : Nat) (cmds : List (Nat × Nat)) (hc : (run chk (Sys.new out) pre).cmds = (d, rid) :: cmds)
    (hm : ∀ o ∈ mid, NoNews d o) (now : Duration) (r : Option (List Lease)) :
    (run chk (Sys.new out) (pre ++ .serve :: mid)).answers.get rid = none ∧ (run chk (Sys.new out) (pre ++ .serve :: mid ++ [.leases now d r])).answers.get rid = some r.isSome := by
  obtain ⟨l, hl, hr⟩ := serve_pending chk hc
  obtain ⟨l', hl', hr'⟩ := waits_run chk mid hm hl
  have e : run chk (Sys.new out) (pre ++ .serve :: mid) = run chk (step chk (run chk (Sys.new out) pre) .serve).2 mid := by rw [run_append]; rfl
  have inv : QInv (run chk (Sys.new out) (pre ++ .serve :: mid)) := qrun_inv chk _ (qinv_new out)
  rw [← e] at hl'
  rw [run_append _ _ [_]]
  generalize run chk (Sys.new out) (pre ++ .serve :: mid) = s at *
  refine ⟨((inv.pend d l' hl').2.2 rid (hr' rid hr)).2, ?_⟩
  simp only [run, step, Sys.register, hl']
  cases r with
  | none => simp only [reply_get, if_pos (hr' rid hr)]; rfl
  | some x => simp only [reply_get, if_pos (hr' rid hr)]; rfl

/-- Two handles ask for the same lease set; there is one query, and both get the answer. -/
def askOps : List Op := [.subscribe 1, .subscribe 1, .path 0 0 ⟨0, 0⟩, .path 1 0 ⟨0, 0⟩]

example := C125_answered true [7] askOps [.serve] 1 0 [(1, 1)] (by decide +kernel) (by intro o ho; simp only [List.mem_singleton] at ho; subst ho; intro _ _ h; cases h) 5 none

example : ((step true (run true (Sys.new [7]) askOps) .serve).1, (step true (run true (Sys.new [7]) (askOps ++ [.serve])) .serve).1,
    (run true (Sys.new [7]) (askOps ++ [.serve, .serve, .leases 5 1 none])).answers) = (.query (some 1), .query none, [(1, false), (0, false)]) := by decide +kernel

/-! ## C126: leases that are kept -/

/-- C126 violated: a lease set that is stored again and again is kept as many times, until its leases expire; the expiration is up to the remote. -/
theorem C126_copies_violated (chk : Bool) (out : List Nat) (d : Nat) (x : Lease) (now : Duration) (hx : now < x.2) (n : Nat) :
    ((run chk (Sys.new out) (List.replicate (n + 1) (.leases now d (some [x])))).leases.get d) = some (List.replicate (n + 1) x) := by
  have step1 : ∀ s : Sys, s.pending = [] → (step chk s (.leases now d (some [x]))).2.leases = s.leases.put d (((s.leases.get d).getD [] ++ [x]).filter fun x => x.2 > now) ∧
      (step chk s (.leases now d (some [x]))).2.pending = [] := by
    intro s hs
    simp only [step, Sys.register, hs, AMap.get_nil]
    exact ⟨trivial, rfl⟩
  have key : ∀ n (s : Sys), s.pending = [] → ∀ k, (s.leases.get d).getD [] = List.replicate k x →
      (run chk s (List.replicate (n + 1) (.leases now d (some [x])))).leases.get d = some (List.replicate (k + (n + 1)) x) := by
    intro n
    induction n with
    | zero =>
      intro s hs k hk
      obtain ⟨h1, _⟩ := step1 s hs
      show (step chk s (.leases now d (some [x]))).2.leases.get d = _
      rw [h1, AMap.get_put, if_pos rfl, hk, ← List.replicate_succ']
      simp [hx]
    | succ n ih =>
      intro s hs k hk
      obtain ⟨h1, h2⟩ := step1 s hs
      rw [List.replicate_succ]
      show (run chk (step chk s (.leases now d (some [x]))).2 _).leases.get d = _
      rw [ih _ h2 (k + 1) (by rw [h1, AMap.get_put, if_pos rfl, hk, ← List.replicate_succ']; simp [hx])]
      congr 2; omega
  have := key n (Sys.new out) rfl 0 rfl
  simpa using this

/-- C126: what is kept for a destination is what was announced for it and has not expired when the last announcement came. -/
theorem C126_fresh (chk : Bool) (s : Sys) (now : Duration) (d : Nat) (l : List Lease) :
    (step chk s (.leases now d (some l))).2.leases.get d = some (((s.leases.get d).getD [] ++ l).filter fun x => now < x.2) ∧
      ∀ d', d' ≠ d → (step chk s (.leases now d (some l))).2.leases.get d' = s.leases.get d' := by
  simp only [step, Sys.register]
  cases s.pending.get d
  all_goals
    simp only [Sys.reply]
    refine ⟨by rw [AMap.get_put, if_pos rfl], fun d' hd => by rw [AMap.get_put, if_neg hd]⟩

end Emissary.RPath
