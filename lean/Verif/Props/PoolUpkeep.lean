import Verif.Props.PoolTable
/-!
# C130, C134: a tunnel pool is refilled, and runs until it is shut down
-/
namespace Emissary.Pool
open Emissary Emissary.Routing

/-! ## Specification -/

/-- Hops can be found for all the tunnels that the pool may want to build in this poll. -/
structure Supplied (chk : Bool) (s : State) (i : Input) : Prop where
  out : (∀ d ∈ i.outDraws, d.isSome) ∧ s.numOut + (s.poll chk i).1.expiringOut.length ≤ i.outDraws.length
  inn : (∀ d ∈ i.inDraws, d.isSome) ∧ s.numIn + (s.poll chk i).1.expiringIn.length ≤ i.inDraws.length

/-- A build that the pool was waiting for has failed. -/
def Failure (s : State) (i : Input) : Prop :=
  ((i.outs.map (·.1)).Nodup ∧ ∃ id ∈ s.pendingOut, (id, false) ∈ i.outs) ∨ ((i.ins.map (·.1)).Nodup ∧ ∃ id ∈ s.pendingIn, (id, none) ∈ i.ins)

/-- As many usable tunnels as configured, ready or being built. -/
def Full (s : State) : Prop := usableOut s = s.numOut ∧ usableIn s = s.numIn

/-- All polls find hops. -/
def SuppliedRun (chk : Bool) : State → List Op → Prop
  | _, [] => True
  | s, .poll i :: ops => Supplied chk s i ∧ SuppliedRun chk (s.step chk (.poll i)) ops
  | s, .read :: ops => SuppliedRun chk (s.step chk .read) ops

/-- Time does not go back. -/
def Monotone (chk : Bool) : State → List Op → Prop
  | _, [] => True
  | s, .poll i :: ops => s.clock ≤ i.now ∧ Monotone chk (s.step chk (.poll i)) ops
  | s, .read :: ops => Monotone chk (s.step chk .read) ops

/-! ## Lemmas -/

theorem drawn_full (n : Nat) (draws : List (Option Nat)) (h : ∀ d ∈ draws, d.isSome) (hn : n ≤ draws.length) : (drawn n draws).length = n := by
  unfold drawn
  induction draws generalizing n with
  | nil => simp at hn; subst hn; rfl
  | cons d draws ih =>
    cases n with
    | zero => rfl
    | succ n =>
      obtain ⟨x, rfl⟩ := Option.isSome_iff_exists.1 (h d (List.mem_cons_self ..))
      rw [List.take_succ_cons, List.filterMap_cons]
      show (List.filterMap id (List.take n draws)).length + 1 = n + 1
      rw [ih n (fun d hd => h d (List.mem_cons_of_mem _ hd)) (by simpa using hn)]

theorem maintain_counts (s : State) (i : Input) (ho : ∀ d ∈ i.outDraws, d.isSome) (hi : ∀ d ∈ i.inDraws, d.isSome)
    (lo : s.numOut + s.expiringOut.length ≤ i.outDraws.length) (li : s.numIn + s.expiringIn.length ≤ i.inDraws.length) :
    s.numOut + s.expiringOut.length ≤ (s.maintain i).outbound.length + (s.maintain i).pendingOut.length ∧
    s.numIn + s.expiringIn.length ≤ (s.maintain i).inbound.length + (s.maintain i).pendingIn.length := by
  have a : s.outCount ≤ i.outDraws.length := by simp only [State.outCount]; split <;> omega
  have b : s.inCount ≤ i.inDraws.length := by simp only [State.inCount]; split <;> omega
  have a' := drawn_full _ _ ho a
  have b' := drawn_full _ _ hi b
  have e : (s.maintain i).outbound.length + (s.maintain i).pendingOut.length = s.outbound.length + (s.pendingOut ++ drawn s.outCount i.outDraws).length ∧
      (s.maintain i).inbound.length + (s.maintain i).pendingIn.length = s.inbound.length + (s.pendingIn ++ drawn s.inCount i.inDraws).length := by
    unfold State.maintain
    dsimp only
    split <;> exact ⟨rfl, rfl⟩
  rw [e.1, e.2, List.length_append, List.length_append, a', b']
  simp only [State.outCount, State.inCount]
  constructor
  · split <;> omega
  · split <;> omega

theorem maintain_rest (s : State) (i : Input) : (s.maintain i).expiringOut = s.expiringOut ∧ (s.maintain i).expiringIn = s.expiringIn ∧ nums (s.maintain i) = nums s ∧
    (s.maintain i).maintenance = s.maintenance ∧ (s.maintain i).running = s.running := by
  unfold State.maintain
  dsimp only
  split <;> exact ⟨rfl, rfl, rfl, rfl, rfl⟩

/-- What outlasts the parts of a poll. -/
def keeps (s : State) : Nat × Bool := (s.maintenance, s.running)

theorem keeps_outResult (now : Nat) (s : State) (r : Nat × Bool) : keeps (s.outResult now r) = keeps s := by
  unfold State.outResult; split
  · rfl
  · dsimp only; split <;> rfl
theorem keeps_inResult (now : Nat) (s : State) (r : Nat × Option (Nat × Nat)) : keeps (s.inResult now r) = keeps s := by
  unfold State.inResult; split
  · rfl
  · dsimp only; split <;> rfl
theorem keeps_expire (now : Nat) (s : State) (t : Inbound) : keeps (s.expire now t) = keeps s := by
  unfold State.expire; split <;> rfl
theorem keeps_fire (now : Nat) (s : State) (t : Nat × Timer) : keeps (s.fire now t) = keeps s := by
  unfold State.fire; split
  · rfl
  · dsimp only; split <;> rfl
theorem keeps_results (s : State) (i : Input) : keeps (s.results i) = keeps s := by
  unfold State.results
  refine foldl_inv (P := fun s' => keeps s' = keeps s) (fun b a hb => (keeps_expire ..).trans hb) _ _ ?_
  refine foldl_inv (P := fun s' => keeps s' = keeps s) (fun b a hb => (keeps_inResult ..).trans hb) _ _ ?_
  exact foldl_inv (P := fun s' => keeps s' = keeps s) (fun b a hb => (keeps_outResult ..).trans hb) _ _ rfl
theorem keeps_middle (s : State) (i : Input) : keeps (s.middle i) = keeps s := by
  unfold State.middle
  exact foldl_inv (P := fun s' => keeps s' = keeps s) (fun b a hb => (keeps_fire ..).trans hb) _ _ (keeps_results s i)
theorem nums_middle (s : State) (i : Input) : nums (s.middle i) = nums s := by
  unfold State.middle
  exact foldl_inv (P := fun s' => nums s' = nums s) (fun b a hb => (nums_fire ..).trans hb) _ _ (nums_results s i)

/-- The failures only grow. -/
theorem failed_outs (now : Nat) (l : List (Nat × Bool)) (n : Nat) : ∀ s : State, n ≤ s.failed → n ≤ (l.foldl (State.outResult now) s).failed :=
  foldl_inv (P := fun s : State => n ≤ s.failed) (fun s r h => by
    unfold State.outResult; split
    · exact h
    · dsimp only; split
      · exact h
      · exact Nat.le_succ_of_le h) l
theorem failed_ins (now : Nat) (l : List (Nat × Option (Nat × Nat))) (n : Nat) : ∀ s : State, n ≤ s.failed → n ≤ (l.foldl (State.inResult now) s).failed :=
  foldl_inv (P := fun s : State => n ≤ s.failed) (fun s r h => by
    unfold State.inResult; split
    · exact h
    · dsimp only; split
      · exact Nat.le_succ_of_le h
      · exact h) l
theorem failed_expires (now : Nat) (l : List Inbound) (n : Nat) : ∀ s : State, n ≤ s.failed → n ≤ (l.foldl (State.expire now) s).failed :=
  foldl_inv (P := fun s : State => n ≤ s.failed) (fun s r h => by unfold State.expire; split <;> exact h) l
theorem failed_fires (now : Nat) (l : List (Nat × Timer)) (n : Nat) : ∀ s : State, n ≤ s.failed → n ≤ (l.foldl (State.fire now) s).failed :=
  foldl_inv (P := fun s : State => n ≤ s.failed) (fun s r h => by
    unfold State.fire; split
    · exact h
    · dsimp only; split <;> exact h) l

theorem outResult_pendingOut (now : Nat) (s : State) (r : Nat × Bool) (id : Nat) (hid : id ∈ s.pendingOut) (hne : r.1 ≠ id) : id ∈ (s.outResult now r).pendingOut := by
  have k : id ∈ s.pendingOut.erase r.1 := (List.mem_erase_of_ne (fun e => hne e.symm)).2 hid
  unfold State.outResult; split
  · exact hid
  · dsimp only; split <;> exact k
theorem inResult_pendingIn (now : Nat) (s : State) (r : Nat × Option (Nat × Nat)) (id : Nat) (hid : id ∈ s.pendingIn) (hne : r.1 ≠ id) : id ∈ (s.inResult now r).pendingIn := by
  have k : id ∈ s.pendingIn.erase r.1 := (List.mem_erase_of_ne (fun e => hne e.symm)).2 hid
  unfold State.inResult; split
  · exact hid
  · dsimp only; split <;> exact k
theorem outResults_pendingIn (now : Nat) (l : List (Nat × Bool)) : ∀ s : State, (l.foldl (State.outResult now) s).pendingIn = s.pendingIn := by
  induction l with
  | nil => intro s; rfl
  | cons a l ih =>
    intro s
    rw [List.foldl_cons, ih]
    unfold State.outResult
    split
    · rfl
    · dsimp only; split <;> rfl

theorem failed_out (now : Nat) (id : Nat) (l : List (Nat × Bool)) : ∀ s : State, (l.map (·.1)).Nodup → id ∈ s.pendingOut → (id, false) ∈ l →
    1 ≤ (l.foldl (State.outResult now) s).failed := by
  induction l with
  | nil => intro s _ _ h; cases h
  | cons r l ih =>
    intro s hn hid hm
    rw [List.map_cons, List.nodup_cons] at hn
    rw [List.foldl_cons]
    rcases List.mem_cons.1 hm with rfl | hm
    · refine failed_outs _ _ _ _ ?_
      unfold State.outResult
      rw [if_neg (by simpa using hid)]
      exact Nat.le_add_left ..
    · exact ih _ hn.2 (outResult_pendingOut now s r id hid fun e => hn.1 (List.mem_map.2 ⟨_, hm, e.symm⟩)) hm
theorem failed_in (now : Nat) (id : Nat) (l : List (Nat × Option (Nat × Nat))) : ∀ s : State, (l.map (·.1)).Nodup → id ∈ s.pendingIn → (id, none) ∈ l →
    1 ≤ (l.foldl (State.inResult now) s).failed := by
  induction l with
  | nil => intro s _ _ h; cases h
  | cons r l ih =>
    intro s hn hid hm
    rw [List.map_cons, List.nodup_cons] at hn
    rw [List.foldl_cons]
    rcases List.mem_cons.1 hm with rfl | hm
    · refine failed_ins _ _ _ _ ?_
      unfold State.inResult
      rw [if_neg (by simpa using hid)]
      exact Nat.le_add_left ..
    · exact ih _ hn.2 (inResult_pendingIn now s r id hid fun e => hn.1 (List.mem_map.2 ⟨_, hm, e.symm⟩)) hm

theorem failed_middle {s : State} {i : Input} (h : Failure s i) : 1 ≤ (s.middle i).failed := by
  unfold State.middle
  refine failed_fires _ _ _ _ ?_
  show 1 ≤ (s.results i).failed
  unfold State.results
  refine failed_expires _ _ _ _ ?_
  rcases h with ⟨hn, id, hid, hm⟩ | ⟨hn, id, hid, hm⟩
  · exact failed_ins _ _ _ _ (failed_out _ id _ _ hn hid hm)
  · refine failed_in _ id _ _ hn ?_ hm
    rw [outResults_pendingIn]
    exact hid

/-- A poll after which the pool still runs. -/
theorem poll_runs {chk : Bool} {s : State} {i : Input} (h : (s.poll chk i).1.running = true) : s.running = true ∧ i.shutdown = false ∧ i.crashed = false ∧
    s.poll chk i = (s.middle i).finish i := by
  rcases poll_cases chk s i with ⟨hr, e⟩ | ⟨hr, ⟨_, e⟩ | ⟨_, ts, e, _⟩ | ⟨hc, e⟩⟩
  · rw [e, hr] at h; cases h
  · rw [e] at h; cases h
  · rw [e] at h; cases h
  · refine ⟨hr, ?_, hc, e⟩
    cases hs : i.shutdown with
    | false => rfl
    | true =>
      rw [e] at h
      unfold State.finish at h
      rw [hs] at h
      cases h

theorem refilled {chk : Bool} {s : State} {i : Input} (hr : (s.poll chk i).1.running = true) (ht : s.maintenance ≤ i.now ∨ Failure s i) :
    ∃ m, (s.poll chk i).1 = ({ s.middle i with maintenance := m } : State).maintain i := by
  obtain ⟨_, hs, _, e⟩ := poll_runs hr
  have k := keeps_middle s i
  have km : (s.middle i).maintenance = s.maintenance := congrArg Prod.fst k
  rw [e]
  unfold State.finish
  rw [hs]
  simp only [Bool.false_eq_true, if_false]
  split
  · exact ⟨_, rfl⟩
  · rename_i hm
    rcases ht with ht | ht
    · exact absurd (km ▸ ht) hm
    · rw [if_pos (show (s.middle i).failed > 0 from failed_middle ht)]
      exact ⟨_, rfl⟩

theorem nums_eq {s s' : State} (h : nums s = nums s') : s.numIn = s'.numIn ∧ s.numOut = s'.numOut := ⟨congrArg Prod.fst h, congrArg Prod.snd h⟩

/-! ## C130 -/

/-- C130: when a build fails or the ten seconds are over, a pool that finds hops starts enough builds: with the tunnels that are about to expire aside, it has
as many tunnels as configured, ready or being built. No promptness is assumed. -/
theorem C130_total (chk : Bool) (s : State) (i : Input) (hr : (s.poll chk i).1.running = true) (ht : s.maintenance ≤ i.now ∨ Failure s i) (hs : Supplied chk s i) :
    s.numOut + (s.poll chk i).1.expiringOut.length ≤ (s.poll chk i).1.outbound.length + (s.poll chk i).1.pendingOut.length ∧
    s.numIn + (s.poll chk i).1.expiringIn.length ≤ (s.poll chk i).1.inbound.length + (s.poll chk i).1.pendingIn.length := by
  obtain ⟨m, e⟩ := refilled hr ht
  obtain ⟨⟨o1, o2⟩, i1, i2⟩ := hs
  rw [e] at o2 i2 ⊢
  generalize hx : ({ s.middle i with maintenance := m } : State) = x at *
  obtain ⟨r1, r2, _⟩ := maintain_rest x i
  rw [r1] at o2 ⊢
  rw [r2] at i2 ⊢
  have n : nums x = nums s := by rw [← hx]; exact nums_middle s i
  obtain ⟨n1, n2⟩ := nums_eq n
  rw [← n2] at o2 ⊢
  rw [← n1] at i2 ⊢
  exact maintain_counts x i o1 i1 o2 i2

theorem full_of {n : Nat} {U V : List Nat} {s : State} (h : SizeInv n U V s) (ho : s.numOut + s.expiringOut.length ≤ s.outbound.length + s.pendingOut.length)
    (hi : s.numIn + s.expiringIn.length ≤ s.inbound.length + s.pendingIn.length) : Full s := by
  have := size_of_inv h
  have := h.count
  have := h.counti
  constructor <;> omega

theorem full_poll (chk : Bool) {s : State} (h : PInv s) (i : Input) (hf : Fresh s i) (hp : Prompt chk s i) (hr : (s.poll chk i).1.running = true)
    (ht : s.maintenance ≤ i.now ∨ Failure s i) (hs : Supplied chk s i) : Full (s.poll chk i).1 := by
  have k := (h.poll chk i hf hp).size
  obtain ⟨a, b⟩ := C130_total chk s i hr ht hs
  obtain ⟨n1, n2⟩ := nums_eq (nums_poll chk s i)
  rw [← n2] at a
  rw [← n1] at b
  exact full_of k a b

/-- C130: when nothing is late by more than fifteen seconds, a poll in which a build fails, or after ten seconds, ends with exactly as many usable tunnels as configured. -/
theorem C130_refill (chk : Bool) (numIn numOut now : Nat) (ops : List Op) (s : State) (hs : s = (State.init numIn numOut now).run chk ops)
    (hg : Good chk (State.init numIn numOut now) ops) (i : Input) (hf : Fresh s i) (hp : Prompt chk s i) (hr : (s.poll chk i).1.running = true)
    (ht : s.maintenance ≤ i.now ∨ Failure s i) (hsu : Supplied chk s i) : usableOut (s.poll chk i).1 = numOut ∧ usableIn (s.poll chk i).1 = numIn := by
  subst hs
  obtain ⟨a, b⟩ := full_poll chk (pInv_run chk ops (pInv_init numIn numOut now) hg) i hf hp hr ht hsu
  obtain ⟨n1, n2⟩ := nums_eq (nums_poll chk ((State.init numIn numOut now).run chk ops) i)
  obtain ⟨m1, m2⟩ := num_run chk ops (State.init numIn numOut now)
  exact ⟨a.trans (n2.trans m2), b.trans (n1.trans m1)⟩

theorem step_not {chk : Bool} {s : State} (o : Op) (h : s.running = false) : (s.step chk o).running = false := by
  cases o with
  | read => exact h
  | poll i =>
    show (s.poll chk i).1.running = false
    rcases poll_cases chk s i with ⟨hr, e⟩ | ⟨hr, _⟩
    · rw [e]; exact hr
    · rw [h] at hr; cases hr

theorem run_ran {chk : Bool} {s : State} (ops : List Op) (h : (s.run chk ops).running = true) : s.running = true := by
  cases hs : s.running with
  | true => rfl
  | false =>
    have := foldl_inv (P := fun s : State => s.running = false) (fun b a hb => step_not (chk := chk) a hb) ops s hs
    unfold State.run at h
    rw [this] at h; cases h

/-- The time of the next upkeep, if a poll does not see to it. -/
theorem maintenance_poll {chk : Bool} {s : State} {i : Input} (hr : (s.poll chk i).1.running = true) :
    (s.poll chk i).1.maintenance = (if s.maintenance ≤ i.now then i.now + 10000 else s.maintenance) := by
  obtain ⟨_, hs, _, e⟩ := poll_runs hr
  have km : (s.middle i).maintenance = s.maintenance := congrArg Prod.fst (keeps_middle s i)
  rw [e]
  unfold State.finish
  rw [hs, km]
  simp only [Bool.false_eq_true, if_false]
  by_cases h : s.maintenance ≤ i.now
  · rw [if_pos h, if_pos h, (maintain_rest _ i).2.2.2.1]
    rfl
  · rw [if_neg h, if_neg h]
    split
    · rw [(maintain_rest _ i).2.2.2.1, km]
    · exact km

theorem due_run (chk : Bool) (ops : List Op) : ∀ {s : State}, s.maintenance ≤ s.clock + 10000 → Monotone chk s ops → (s.run chk ops).running = true →
    (s.run chk ops).maintenance ≤ (s.run chk ops).clock + 10000 := by
  induction ops with
  | nil => intro s h _ _; exact h
  | cons o ops ih =>
    intro s h hm hr
    cases o with
    | read => exact ih (s := s.step chk .read) h hm hr
    | poll i =>
      refine ih (s := s.step chk (.poll i)) ?_ hm.2 hr
      have h1 : (s.poll chk i).1.running = true := run_ran ops hr
      have h2 := clock_poll chk s i (poll_runs h1).1
      have h3 := maintenance_poll h1
      show (s.poll chk i).1.maintenance ≤ (s.poll chk i).1.clock + 10000
      rw [h2, h3]
      have := hm.1
      split <;> omega

theorem full_within (chk : Bool) (due : Nat) (ops : List Op) : ∀ {s : State}, PInv s → s.maintenance ≤ due → Good chk s ops → SuppliedRun chk s ops → (s.run chk ops).running = true →
    (∃ i, .poll i ∈ ops ∧ due ≤ i.now) → ∃ a j b, ops = a ++ .poll j :: b ∧ Full (s.run chk (a ++ [.poll j])) := by
  induction ops with
  | nil => intro s _ _ _ _ _ ⟨i, h, _⟩; cases h
  | cons o ops ih =>
    intro s h hd hg hs hr ⟨i, hi, hl⟩
    cases o with
    | read =>
      have k : PInv (s.step chk .read) := pInv_run chk [.read] h trivial
      rcases List.mem_cons.1 hi with hi | hi
      · cases hi
      · obtain ⟨a, j, b, e, f⟩ := ih (s := s.step chk .read) k hd hg hs hr ⟨i, hi, hl⟩
        exact ⟨.read :: a, j, b, by rw [e]; rfl, f⟩
    | poll j =>
      have h1 : (s.poll chk j).1.running = true := run_ran ops hr
      by_cases hm : s.maintenance ≤ j.now
      · exact ⟨[], j, ops, rfl, full_poll chk h j hg.1 hg.2.1 h1 (.inl hm) hs.1⟩
      · have h3 := maintenance_poll h1
        rw [if_neg hm] at h3
        rcases List.mem_cons.1 hi with hi | hi
        · injection hi with hi; subst hi; omega
        · obtain ⟨a, j', b, e, f⟩ := ih (s := s.step chk (.poll j)) (h.poll chk j hg.1 hg.2.1) (by show (s.poll chk j).1.maintenance ≤ due; omega) hg.2.2 hs.2 hr ⟨i, hi, hl⟩
          exact ⟨.poll j :: a, j', b, by rw [e]; rfl, f⟩

theorem good_append {chk : Bool} (a b : List Op) : ∀ {s : State}, Good chk s (a ++ b) ↔ Good chk s a ∧ Good chk (s.run chk a) b := by
  induction a with
  | nil => intro s; exact ⟨fun h => ⟨trivial, h⟩, fun h => h.2⟩
  | cons o a ih =>
    intro s
    cases o with
    | read => exact ih (s := s.step chk .read)
    | poll i =>
      refine ⟨fun h => ?_, fun h => ⟨h.1.1, h.1.2.1, ih.2 ⟨h.1.2.2, h.2⟩⟩⟩
      obtain ⟨x, y⟩ := ih.1 h.2.2
      exact ⟨⟨h.1, h.2.1, x⟩, y⟩

/-- C130: whatever happened before, a running pool that finds hops has as many usable tunnels as configured at some moment before a poll that is ten seconds or more
later has ended, provided that nothing is late by more than fifteen seconds. -/
theorem C130_ten_seconds (chk : Bool) (numIn numOut now : Nat) (before ops : List Op)
    (hm : Monotone chk (State.init numIn numOut now) before) (hg : Good chk (State.init numIn numOut now) (before ++ ops))
    (s : State) (hs : s = (State.init numIn numOut now).run chk before) (hsu : SuppliedRun chk s ops) (hr : (s.run chk ops).running = true)
    (hl : ∃ i, .poll i ∈ ops ∧ s.clock + 10000 ≤ i.now) :
    ∃ a j b, ops = a ++ .poll j :: b ∧ usableOut (s.run chk (a ++ [.poll j])) = numOut ∧ usableIn (s.run chk (a ++ [.poll j])) = numIn := by
  subst hs
  obtain ⟨g1, g2⟩ := (good_append before ops).1 hg
  have h1 := pInv_run chk before (pInv_init numIn numOut now) g1
  have h2 := due_run chk before (s := State.init numIn numOut now) (by simp only [State.init]; omega) hm (run_ran ops hr)
  obtain ⟨a, j, b, e, f⟩ := full_within chk _ ops h1 h2 g2 hsu hr hl
  obtain ⟨m1, m2⟩ := num_run chk before (State.init numIn numOut now)
  obtain ⟨n1, n2⟩ := num_run chk (a ++ [.poll j]) ((State.init numIn numOut now).run chk before)
  exact ⟨a, j, b, e, f.1.trans (n2.trans m2), f.2.trans (n1.trans m1)⟩

end Emissary.Pool
