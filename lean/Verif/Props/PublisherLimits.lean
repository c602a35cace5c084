import Verif.Props.PublisherPace
/-!
# C159 to C162: when the publisher stops, that it goes on, and what makes it do the wrong thing
-/
namespace Emissary.Publish
open Emissary.I2np (Duration)
open Emissary.Dest (Lease)

/-! ## C159: when it stops -/

theorem quiet_step {chk : Bool} {L : List Out} {s : State} (h : s.phase = .inactive ∧ ∃ new, s.log = L ++ new ∧ ∀ o ∈ new, ¬ Sends o) (o : Op) (ho : isBuilt o = false) :
    (s.step chk o).phase = .inactive ∧ ∃ new, (s.step chk o).log = L ++ new ∧ ∀ o ∈ new, ¬ Sends o := by
  have h0 := h
  obtain ⟨hp, new, e, hn⟩ := h
  unfold State.step
  split
  · exact h0
  cases o with
  | tick t => exact h0
  | leaseSet raw cmd =>
    dsimp only [State.registerLeaseSet]
    rw [hp]
    split <;> exact ⟨rfl, new, e, hn⟩
  | store k raw =>
    dsimp only [State.databaseStore]
    rw [hp]
    split <;> exact h0
  | reply k r kn a =>
    dsimp only [State.searchReply]
    split
    · exact h0
    · split
      · exact h0
      · obtain ⟨n, h1, h2, h3, h4⟩ := log_ask a (r.filter fun r => (kn r).isNone && !decide (r ∈ s.pending)).eraseDups (s.learn r kn)
        refine ⟨h4.trans hp, new ++ n, ?_, ?_⟩
        · rw [h1]
          show s.log ++ n = _
          rw [e, List.append_assoc]
        · intro o ho
          rcases List.mem_append.mp ho with ho | ho
          · exact hn o ho
          · obtain ⟨_, rfl⟩ := h2 o ho
            exact fun h => h
  | built l => cases ho
  | expiring id =>
    dsimp only [State.expire]
    split <;> exact ⟨hp, new, e, hn⟩
  | expired id => exact ⟨hp, new, e, hn⟩
  | poll t =>
    have : s.poll chk t = s := by
      show (s.turns chk 4 t).1 = s
      unfold State.turns State.turn
      rw [hp]
    show (s.poll chk t).phase = _ ∧ ∃ new, (s.poll chk t).log = _ ∧ _
    rw [this]
    exact h0
  | result r ok k =>
    dsimp only [State.result]
    split
    · split
      · split <;> exact ⟨hp, new, e, hn⟩
      · exact ⟨hp, new, e, hn⟩
    · exact h0

theorem quiet (chk : Bool) (s : State) (d : Duration) (tm : Option Duration) (hd : s.done = false) (hp : s.phase = .verify d tm) (raw : Bytes) (ops : List Op) (ho : ∀ o ∈ ops, isBuilt o = false) :
    ∃ new, (s.run chk (.store s.key raw :: ops)).log = s.log ++ new ∧ ∀ o ∈ new, ¬ Sends o := by
  have h1 : s.step chk (.store s.key raw) = { s with phase := .inactive, stored := [], queried := [] } := by
    unfold State.step State.databaseStore
    rw [hd, hp]
    simp
  have := run_inv (P := fun x => x.phase = .inactive ∧ ∃ new, x.log = s.log ++ new ∧ ∀ o ∈ new, ¬ Sends o) (chk := chk) (ops := ops) (fun x o hx h => quiet_step h o (ho o hx)) ops
    (s.step chk (.store s.key raw)) (fun _ h => h) ⟨by rw [h1], [], by rw [h1]; simp, by simp⟩
  exact this.2

/-- When a floodfill that is asked gives the lease set back, nothing more is sent until a new tunnel is built. -/
theorem C159_confirmed_partial (chk : Bool) (s : State) (d : Duration) (tm : Option Duration) (hd : s.done = false) (hp : s.phase = .verify d tm) (ops : List Op) (ho : ∀ o ∈ ops, isBuilt o = false) :
    ∃ new, (s.run chk (.store s.key s.leaseSet :: ops)).log = s.log ++ new ∧ ∀ o ∈ new, ¬ Sends o := quiet chk s d tm hd hp _ ops ho

/-- But not only then: any lease set under the destination's key, whatever is in it and whoever sends it, stops the publisher during a verification, although the
published lease set has not been seen. -/
theorem C159_forged_violated (chk : Bool) (s : State) (d : Duration) (tm : Option Duration) (hd : s.done = false) (hp : s.phase = .verify d tm) (raw : Bytes) (_hr : raw ≠ s.leaseSet) (ops : List Op)
    (ho : ∀ o ∈ ops, isBuilt o = false) : ∃ new, (s.run chk (.store s.key raw :: ops)).log = s.log ++ new ∧ ∀ o ∈ new, ¬ Sends o := quiet chk s d tm hd hp raw ops ho

/-- A store under another key, or one that comes when no verification runs, changes nothing. -/
theorem C159_other (chk : Bool) (s : State) (key raw : Bytes) (h : key ≠ s.key ∨ ∀ d tm, s.phase ≠ .verify d tm) : s.step chk (.store key raw) = s := by
  unfold State.step State.databaseStore
  split
  · rfl
  · dsimp only
    rcases h with h | h
    · rw [if_pos (Ne.symm h)]
    · split
      · rfl
      · split
        · rename_i d tm hp; exact absurd hp (h d tm)
        · rfl

/-! ## C160: it goes on -/

/-- How many turns there are at most in a phase. -/
def rank (s : State) : Nat := match s.phase with
  | .awaitingTunnels r => if r ≤ s.now then 3 else 0
  | .retry .closest r => if r ≤ s.now then 3 else 0
  | .retry .publish r => if r ≤ s.now then 2 else 0
  | .retry (.verify _) r => if r ≤ s.now then 3 else 0
  | .closest => 2
  | .publish => 1
  | .flooding r => if r ≤ s.now then 2 else 0
  | .verify d tm => if verifyWait ≤ s.now - d then 2 else match tm with
    | none => 1
    | some r => if r ≤ s.now then 2 else 0
  | _ => 0

theorem later {n w : Nat} (h : 0 < w) : ¬ n + w ≤ n := by omega

theorem rank_retry (s : State) (k : Retry) : rank { s with phase := .retry k (s.now + retryWait) } = 0 := by
  have : ¬ s.now + retryWait ≤ s.now := later (by decide)
  cases k <;> simp only [rank, this, if_false]

theorem rank_closest (s : State) (b : Bool) : rank (s.getClosest b) ≤ 2 := by
  cases b with
  | true => exact Nat.le_refl _
  | false => exact Nat.le_trans (Nat.le_of_eq (rank_retry s .closest)) (by decide)

theorem rank_turn (chk : Bool) (s : State) (t : Turn) (h : (s.turn chk t).2 = true) : rank (s.turn chk t).1 + 1 ≤ rank s := by
  unfold State.turn at h ⊢
  split at h
  · rename_i r hp
    split at h
    · rename_i hr
      simp only [hr, if_true]
      have h1 : rank s = 3 := by unfold rank; rw [hp]; exact if_pos hr
      rw [h1]
      exact Nat.succ_le_succ (rank_closest s _)
    · cases h
  · rename_i k r hp
    split at h
    · rename_i hr
      simp only [hr, if_true]
      cases k with
      | closest =>
        have h1 : rank s = 3 := by unfold rank; rw [hp]; exact if_pos hr
        rw [h1]
        exact Nat.succ_le_succ (rank_closest s _)
      | publish =>
        have h1 : rank s = 2 := by unfold rank; rw [hp]; exact if_pos hr
        rw [h1]
        exact Nat.le_refl _
      | verify d =>
        have h1 : rank s = 3 := by unfold rank; rw [hp]; exact if_pos hr
        rw [h1]
        refine Nat.succ_le_succ ?_
        unfold rank State.again
        dsimp only
        split <;> decide
    · cases h
  · rename_i hp
    have h1 : rank s = 2 := by unfold rank; rw [hp]
    rw [h1]
    split at h
    · cases h
    · cases h
    · rename_i l ha
      refine Nat.succ_le_succ ?_
      show rank (s.gotClosest t l) ≤ 1
      unfold State.gotClosest
      dsimp only
      split
      · rename_i he
        have : ¬ s.now + retryWait ≤ s.now := later (by decide)
        simp only [rank, this, if_false]
        exact Nat.zero_le _
      · exact Nat.le_refl _
  · rename_i hp
    have h1 : rank s = 1 := by unfold rank; rw [hp]
    rw [h1]
    refine Nat.succ_le_succ (Nat.le_of_eq ?_)
    unfold State.sendStore
    split
    · exact rank_retry s _
    · split
      · have : ¬ s.now + floodWait ≤ s.now := later (by decide)
        simp only [rank, State.out, this, if_false]
      · exact rank_retry s _
  · rename_i r hp
    split at h
    · rename_i hr
      have h1 : rank s = 2 := by unfold rank; rw [hp]; exact if_pos hr
      rw [h1]
      simp only [hr, if_true]
      refine Nat.succ_le_succ ?_
      have : ¬ verifyWait ≤ s.now - s.now := by rw [Nat.sub_self]; decide
      simp only [rank, this, if_false]
      exact Nat.le_refl _
    · cases h
  · rename_i d tm hp
    split at h
    · rename_i hw
      have h1 : rank s = 2 := by unfold rank; rw [hp]; exact if_pos hw
      rw [h1]
      simp only [hw, if_true]
      exact Nat.le_refl _
    · rename_i hw
      simp only [hw, if_false]
      split at h
      · have h1 : rank s = 1 := by unfold rank; rw [hp]; exact if_neg hw
        rw [h1]
        refine Nat.succ_le_succ (Nat.le_of_eq ?_)
        show rank (s.sendLookup t d) = 0
        unfold State.sendLookup
        split
        · exact rank_retry s _
        · split
          · have : ¬ s.now + lookupWait ≤ s.now := later (by decide)
            simp only [rank, State.out, this, hw, if_false]
          · exact rank_retry s _
      · rename_i r
        split at h
        · rename_i hr
          have h1 : rank s = 2 := by unfold rank; rw [hp]; simp only [hw, hr, if_true, if_false]
          rw [h1]
          simp only [hr, if_true]
          refine Nat.succ_le_succ ?_
          simp only [rank, hw, if_false]
          exact Nat.le_refl _
        · cases h
  · cases h
  · cases h
  · cases h

theorem turns_end (chk : Bool) : ∀ (n : Nat) (s : State) (t : Nat → Turn), rank s < n → (s.turns chk n t).2 = true ∧ ∃ (q : State) (x : Turn), s.turns chk n t = ((q.turn chk x).1, true) ∧ (q.turn chk x).2 = false := by
  intro n
  induction n with
  | zero => intro s t h; omega
  | succ n ih =>
    intro s t h
    unfold State.turns
    have hr := rank_turn chk s (t 0)
    cases hx : s.turn chk (t 0) with
    | mk q b =>
      rw [hx] at hr
      cases b with
      | true => exact ih q _ (by have := hr rfl; dsimp only at this; omega)
      | false => exact ⟨rfl, s, t 0, by rw [hx], by rw [hx]⟩

theorem rank_le (s : State) : rank s ≤ 3 := by
  unfold rank
  repeat' split
  all_goals omega

/-- The loop always comes to an end, whatever the state, the time and the answers: after at most four turns. -/
theorem C160_poll_ends (chk : Bool) (s : State) (t : Nat → Turn) (n : Nat) (hn : 4 ≤ n) : (s.turns chk n t).2 = true := (turns_end chk n s t (by have := rank_le s; omega)).1

/-- What a publisher that has been polled waits for. -/
def Waits (s : State) : Prop := match s.phase with
  | .inactive => True
  | .awaitingLeaseSet => True
  | .closest => True
  | .poisoned => True
  | .publish => False
  | .awaitingTunnels r => s.now < r
  | .retry _ r => s.now < r
  | .flooding r => s.now < r
  | .verify d (some r) => s.now < r ∧ s.now < d + 15 * 1000000000
  | .verify _ none => False

theorem started_again {n d : Nat} (h : ¬ 15 * 1000000000 ≤ n - d) : n < d + 15 * 1000000000 := by omega

/-- After it has been polled, a publisher waits for a tunnel, for a new lease set, for the network database, or for a timer that is in the future. -/
theorem C160_waits (chk : Bool) (s : State) (t : Nat → Turn) : Waits (s.poll chk t) := by
  obtain ⟨q, x, e, h⟩ := (turns_end chk 4 s t (Nat.lt_succ_of_le (rank_le s))).2
  have e' : s.poll chk t = (q.turn chk x).1 := by
    show (s.turns chk 4 t).1 = _
    rw [e]
  rw [e']
  unfold State.turn at h ⊢
  unfold Waits
  split at h
  · rename_i r hp
    split at h
    · cases h
    · rename_i hr
      simp only [hr, if_false]
      rw [hp]; exact Nat.lt_of_not_le hr
  · rename_i k r hp
    split at h
    · cases h
    · rename_i hr
      simp only [hr, if_false]
      rw [hp]; exact Nat.lt_of_not_le hr
  · rename_i hp
    split at h
    · dsimp only; rw [hp]; trivial
    · trivial
    · cases h
  · cases h
  · rename_i r hp
    split at h
    · cases h
    · rename_i hr
      simp only [hr, if_false]
      rw [hp]; exact Nat.lt_of_not_le hr
  · rename_i d tm hp
    split at h
    · cases h
    · rename_i hw
      simp only [hw, if_false]
      split at h
      · cases h
      · rename_i r
        split at h
        · cases h
        · rename_i hr
          simp only [hr, if_false]
          rw [hp]
          exact ⟨Nat.lt_of_not_le hr, started_again hw⟩
  · rename_i hp; dsimp only; rw [hp]; trivial
  · rename_i hp; dsimp only; rw [hp]; trivial
  · rename_i hp; dsimp only; rw [hp]; trivial

/-- Timers end soon. -/
def Soon (s : State) : Prop := match s.phase with
  | .awaitingTunnels r => r ≤ s.now + 30 * 1000000000
  | .retry _ r => r ≤ s.now + 1 * 1000000000
  | .flooding r => r ≤ s.now + 10 * 1000000000
  | .verify _ (some r) => r ≤ s.now + 2 * 1000000000
  | _ => True

theorem soon_closest (s : State) (b : Bool) : Soon (s.getClosest b) := by
  cases b with
  | true => trivial
  | false => exact Nat.le_refl _

theorem soon_turn {chk : Bool} {s : State} (h : Soon s) (t : Turn) : Soon (s.turn chk t).1 := by
  unfold State.turn
  split
  · split
    · exact soon_closest s _
    · exact h
  · rename_i k r hp
    split
    · cases k with
      | closest => exact soon_closest s _
      | publish => trivial
      | verify d => trivial
    · exact h
  · split
    · exact h
    · trivial
    · unfold State.gotClosest
      dsimp only
      split
      · exact Nat.le_refl _
      · trivial
  · unfold State.sendStore
    split
    · exact Nat.le_refl _
    · split <;> exact Nat.le_refl _
  · split
    · trivial
    · exact h
  · split
    · trivial
    · split
      · unfold State.sendLookup
        split
        · exact Nat.le_refl _
        · split <;> exact Nat.le_refl _
      · split
        · trivial
        · exact h
  · exact h
  · exact h
  · exact h

theorem soon_later {r a b w : Nat} (h : r ≤ a + w) (hb : a ≤ b) : r ≤ b + w := by omega

theorem soon_step {chk : Bool} {s : State} (h : Soon s) (o : Op) : Soon (s.step chk o) := by
  unfold State.step
  split
  · exact h
  cases o with
  | tick t =>
    unfold Soon at h ⊢
    dsimp only
    split <;> rename_i hp
    · rw [hp] at h; exact soon_later h (Nat.le_max_left _ _)
    · rw [hp] at h; exact soon_later h (Nat.le_max_left _ _)
    · rw [hp] at h; exact soon_later h (Nat.le_max_left _ _)
    · rw [hp] at h; exact soon_later h (Nat.le_max_left _ _)
    · trivial
  | leaseSet raw cmd =>
    dsimp only [State.registerLeaseSet]
    split
    · exact h
    · split
      · exact soon_closest _ _
      · exact h
  | store k raw =>
    dsimp only [State.databaseStore]
    split
    · exact h
    · split
      · trivial
      · exact h
  | reply k r kn a =>
    dsimp only [State.searchReply]
    split
    · exact h
    · split
      · exact h
      · obtain ⟨n, _, _, h3, h4⟩ := log_ask a (r.filter fun r => (kn r).isNone && !decide (r ∈ s.pending)).eraseDups (s.learn r kn)
        unfold Soon
        rw [h3, h4]
        exact h
  | built l =>
    dsimp only [State.inbound]
    split
    · exact h
    · split
      · trivial
      · exact Nat.le_refl _
  | expiring id =>
    dsimp only [State.expire]
    split <;> exact h
  | expired id => exact h
  | poll t => exact turns_inv (P := Soon) (fun s t h => soon_turn h t) _ s t h
  | result r ok k =>
    dsimp only [State.result]
    split
    · split
      · split <;> exact h
      · exact h
    · exact h

/-- In every state that is reached, a timer ends within 30 seconds. -/
theorem C160_soon (chk : Bool) (t : Duration) (tunnels : List Lease) (key : Bytes) (num : Nat) (u : Bool) (ls : Bytes) (cmd : Bool) (ops : List Op) :
    Soon ((State.new t tunnels key num u ls cmd).run chk ops) := by
  refine run_inv (P := Soon) (chk := chk) (ops := ops) (fun s o _ h => soon_step h o) ops _ (fun _ h => h) ?_
  unfold State.new closestPhase
  cases u <;> cases cmd <;> first | trivial | exact Nat.le_refl _

theorem message_of {s : State} {t : Turn} {f : Bytes} (ht : s.tunnels ≠ []) (hf : f ∈ s.ids) : ∃ k l, s.message t (some f) = some (f, k, l) ∧ s.floodfills.get f = some k := by
  unfold State.message
  rw [if_neg ht]
  obtain ⟨k, hk⟩ : ∃ k, s.floodfills.get f = some k := by
    obtain ⟨x, hx, e⟩ := List.mem_map.mp hf
    unfold AMap.get
    cases hq : s.floodfills.find? (fun y => decide (y.1 = f)) with
    | none =>
      rw [List.find?_eq_none] at hq
      exact absurd (by simpa using e) (hq x hx)
    | some y => exact ⟨_, rfl⟩
  have hl : t.rnd % s.tunnels.length < s.tunnels.length := Nat.mod_lt _ (by cases h : s.tunnels with | nil => exact absurd h ht | cons => simp)
  refine ⟨k, s.tunnels[t.rnd % s.tunnels.length].2, ?_, hk⟩
  dsimp only
  rw [hk, List.getElem?_eq_getElem hl]

theorem target_some {s : State} {t : Turn} (h32 : ∀ r ∈ s.ids, r.length = 32) (hf : s.ids ≠ []) : ∃ f ∈ s.ids, s.storeTarget t = some f := by
  unfold State.storeTarget
  split
  · rename_i f h
    exact ⟨f, (List.mem_filter.mp (closest_some (fun r hr => h32 r (List.mem_filter.mp hr).1) h).1).1, rfl⟩
  · cases h : Netdb.getClosest t.target s.ids with
    | none => exact absurd (closest_none h32 h) hf
    | some f => exact ⟨f, (closest_some h32 h).1, rfl⟩

theorem resend {chk : Bool} {s : State} {d : Duration} {tm : Option Duration} (hd : s.done = false) (hp : s.phase = .verify d tm) (hw : 15 * 1000000000 ≤ s.now - d) (ht : s.tunnels ≠ [])
    {t : Nat → Turn} (hpool : (t 1).pool = true) {f : Bytes} (hf : f ∈ s.ids) (hs : s.storeTarget (t 1) = some f) :
    ∃ k l, (s.step chk (.poll t)).log = s.log ++ [.store s.now f k s.leaseSet l] ∧ s.floodfills.get f = some k := by
  obtain ⟨k, l, hm, hk⟩ := message_of (t := t 1) ht hf
  refine ⟨k, l, ?_, hk⟩
  have e0 : s.turn chk (t 0) = ({ s with queried := [], phase := .publish }, true) := by
    have hw' : verifyWait ≤ s.now - d := by unfold verifyWait; exact hw
    unfold State.turn
    rw [hp]
    simp only [hw', if_true]
  have e1 : ({ s with queried := [], phase := .publish } : State).turn chk (t 1) = ({ (({ s with queried := [], phase := .publish } : State).out (.store s.now f k s.leaseSet l)) with
      stored := ins s.stored f, queried := ins [] f, phase := .flooding (s.now + floodWait) }, true) := by
    have hm' : ({ s with queried := [], phase := .publish } : State).message (t 1) (({ s with queried := [], phase := .publish } : State).storeTarget (t 1)) = some (f, k, l) := by
      have : ({ s with queried := [], phase := .publish } : State).storeTarget (t 1) = some f := hs
      rw [this]
      exact hm
    show (State.sendStore _ _, true) = _
    unfold State.sendStore
    rw [hm']
    dsimp only
    rw [if_pos hpool]
  have e2 : ∀ (q : State) (t : Nat → Turn) (r : Duration), q.phase = .flooding r → ¬ r ≤ q.now → (q.turns chk 2 t).1 = q := by
    intro q t r hq hr
    have : q.turn chk (t 0) = (q, false) := by
      unfold State.turn
      rw [hq]
      simp only [hr, if_false]
    unfold State.turns
    rw [this]
  unfold State.step
  rw [hd]
  show (s.turns chk 4 t).1.log = _
  unfold State.turns
  rw [e0]
  show (State.turns chk 3 _ _).1.log = _
  unfold State.turns
  rw [e1]
  show (State.turns chk 2 _ _).1.log = _
  refine (congrArg State.log (e2 _ _ (s.now + floodWait) ?_ ?_)).trans ?_
  · rfl
  · exact later (n := s.now) (by decide)
  · rfl

/-- When a verification has taken 15 seconds without success, and there are a tunnel and a floodfill and the tunnel pool takes the message, the current lease set is sent again. -/
theorem C160_again (chk : Bool) (s : State) (d : Duration) (tm : Option Duration) (hd : s.done = false) (hp : s.phase = .verify d tm) (hw : 15 * 1000000000 ≤ s.now - d) (ht : s.tunnels ≠ [])
    (h32 : ∀ r ∈ s.ids, r.length = 32) (hf : s.ids ≠ []) (t : Nat → Turn) (hpool : (t 1).pool = true) :
    ∃ f k l, (s.step chk (.poll t)).log = s.log ++ [.store s.now f k s.leaseSet l] := by
  obtain ⟨f, hf, hs⟩ := target_some (t := t 1) h32 hf
  obtain ⟨k, l, h, _⟩ := resend hd hp hw ht hpool hf hs
  exact ⟨f, k, l, h⟩

/-! ## C161: the publisher ends -/

/-- When the network database drops a request for the closest floodfills, which it does when it knows none, the publisher ends, and with it the destination: nothing that
happens later has any effect. -/
theorem C161_ends_violated (chk : Bool) (s : State) (hd : s.done = false) (hp : s.phase = .closest) (t : Nat → Turn) (ha : (t 0).answer = some none) (ops : List Op) :
    s.run chk (.poll t :: ops) = s.step chk (.poll t) ∧ (s.step chk (.poll t)).done = true ∧ (s.step chk (.poll t)).log = s.log := by
  have e : s.step chk (.poll t) = { s with phase := .poisoned, done := true } := by
    unfold State.step
    rw [hd]
    show (s.turns chk 4 t).1 = _
    unfold State.turns State.turn
    rw [hp]
    dsimp only
    rw [ha]
  refine ⟨?_, by rw [e], by rw [e]⟩
  have : ∀ (l : List Op) (q : State), q.done = true → q.run chk l = q := by
    intro l
    induction l with
    | nil => intro q _; rfl
    | cons o l ih =>
      intro q hq
      have : q.step chk o = q := by unfold State.step; rw [if_pos hq]
      show (q.step chk o).run chk l = q
      rw [this]
      exact ih q hq
  exact this ops _ (by rw [e])

theorem done_ask (a : Bytes → Bool) (l : List Bytes) : ∀ q : State, (l.foldl (fun s r => s.ask a r) q).done = q.done := by
  induction l with
  | nil => intro q; rfl
  | cons x l ih =>
    intro q
    show (List.foldl _ (q.ask a x) l).done = _
    rw [ih]
    unfold State.ask
    split <;> rfl

/-- A step that is not a poll. -/
def isPoll : Op → Bool
  | .poll _ => true
  | _ => false

theorem done_other (chk : Bool) (s : State) (o : Op) (ho : isPoll o = false) : (s.step chk o).done = s.done := by
  unfold State.step
  split
  · rfl
  cases o with
  | tick t => rfl
  | leaseSet raw cmd =>
    dsimp only [State.registerLeaseSet]
    split
    · rfl
    · split <;> rfl
  | store k raw =>
    dsimp only [State.databaseStore]
    split
    · rfl
    · split <;> rfl
  | reply k r kn a =>
    dsimp only [State.searchReply]
    split
    · rfl
    · split
      · rfl
      · rw [done_ask]; rfl
  | built l =>
    dsimp only [State.inbound]
    split
    · rfl
    · split <;> rfl
  | expiring id =>
    dsimp only [State.expire]
    split <;> rfl
  | expired id => rfl
  | poll t => cases ho
  | result r ok k =>
    dsimp only [State.result]
    split
    · split
      · split <;> rfl
      · rfl
    · rfl

/-- Nothing else ends it. -/
theorem C161_only_partial (chk : Bool) (s : State) (hd : s.done = false) (o : Op) (h : (s.step chk o).done = true) : ∃ t, o = .poll t ∧ ∃ i, (t i).answer = some none := by
  cases o with
  | poll t =>
    refine ⟨t, rfl, ?_⟩
    have key : ∀ (n : Nat) (q : State) (t : Nat → Turn), q.done = false → (q.turns chk n t).1.done = true → ∃ i, (t i).answer = some none := by
      intro n
      induction n with
      | zero => intro q t hq h; rw [show (q.turns chk 0 t).1.done = q.done from rfl, hq] at h; cases h
      | succ n ih =>
        intro q t hq h
        by_cases hs : (t 0).answer = some none
        · exact ⟨0, hs⟩
        · have h1 : (q.turn chk (t 0)).1.done = false := by
            unfold State.turn
            split
            · split <;> exact hq
            · rename_i k _ _; split
              · cases k <;> exact hq
              · exact hq
            · split
              · exact hq
              · rename_i h; exact absurd h hs
              · exact hq
            · unfold State.sendStore
              split
              · exact hq
              · split <;> exact hq
            · split <;> exact hq
            · split
              · exact hq
              · split
                · unfold State.sendLookup
                  split
                  · exact hq
                  · split <;> exact hq
                · split <;> exact hq
            · exact hq
            · exact hq
            · exact hq
          unfold State.turns at h
          cases hx : q.turn chk (t 0) with
          | mk a b =>
            rw [hx] at h h1
            cases b with
            | true =>
              obtain ⟨i, hi⟩ := ih a (fun i => t (i + 1)) h1 h
              exact ⟨i + 1, hi⟩
            | false => rw [h1] at h; cases h
    unfold State.step at h
    rw [hd] at h
    exact key 4 s t hd h
  | tick t => exact absurd (h.symm.trans (done_other chk s (.tick t) rfl)) (by rw [hd]; decide)
  | leaseSet a b => exact absurd (h.symm.trans (done_other chk s (.leaseSet a b) rfl)) (by rw [hd]; decide)
  | store a b => exact absurd (h.symm.trans (done_other chk s (.store a b) rfl)) (by rw [hd]; decide)
  | reply a b c d => exact absurd (h.symm.trans (done_other chk s (.reply a b c d) rfl)) (by rw [hd]; decide)
  | built a => exact absurd (h.symm.trans (done_other chk s (.built a) rfl)) (by rw [hd]; decide)
  | expiring a => exact absurd (h.symm.trans (done_other chk s (.expiring a) rfl)) (by rw [hd]; decide)
  | expired a => exact absurd (h.symm.trans (done_other chk s (.expired a) rfl)) (by rw [hd]; decide)
  | result a b c => exact absurd (h.symm.trans (done_other chk s (.result a b c) rfl)) (by rw [hd]; decide)

/-! ## C162: the publisher is steered -/

/-- Anybody can choose who is sent the lease set. A search reply for the destination's key that names any router whose router info is known, be it a floodfill or not, makes
that router the next one to which the lease set is published, if it is closer to the key than the others that have not been tried. -/
theorem C162_steered_violated (chk : Bool) (s : State) (d : Duration) (tm : Option Duration) (hd : s.done = false) (hu : s.unpublished = false) (hp : s.phase = .verify d tm)
    (hw : 15 * 1000000000 ≤ s.now - d) (ht : s.tunnels ≠ []) (h32 : ∀ r ∈ s.ids, r.length = 32) (x : Bytes) (k : Nat) (hx : x.length = 32) (hn : x ∉ s.stored)
    (known : Bytes → Option Nat) (hk : known x = some k) (accept : Bytes → Bool) (t : Nat → Turn) (hpool : (t 1).pool = true)
    (hc : ∀ r ∈ s.ids, r ∉ s.stored → r ≠ x → Netdb.distance (t 1).target x < Netdb.distance (t 1).target r) :
    ∃ l, (s.run chk [.reply s.key [x] known accept, .poll t]).log = s.log ++ [.store s.now x k s.leaseSet l] := by
  have e : s.step chk (.reply s.key [x] known accept) = { s with floodfills := s.floodfills.put x k } := by
    unfold State.step State.searchReply State.learn
    rw [hd, hu]
    simp only [Bool.false_eq_true, if_false, ne_eq, not_true_eq_false]
    have h1 : ([x].filter fun r => (known r).isNone && !decide (r ∈ s.pending)) = [] := by simp [hk]
    have h2 : ([x].filterMap fun r => (known r).map fun k => (r, k)) = [(x, k)] := by simp [hk]
    rw [h1, h2]
    rfl
  show ∃ l, ((s.step chk (.reply s.key [x] known accept)).step chk (.poll t)).log = _
  rw [e]
  have hid : ∀ r, r ∈ ({ s with floodfills := s.floodfills.put x k } : State).ids → r = x ∨ r ∈ s.ids := by
    intro r hr
    obtain ⟨y, hy, e⟩ := List.mem_map.mp hr
    rcases List.mem_cons.mp hy with rfl | hy
    · exact .inl e.symm
    · exact .inr (List.mem_map.mpr ⟨y, (List.mem_filter.mp hy).1, e⟩)
  have hxi : x ∈ ({ s with floodfills := s.floodfills.put x k } : State).ids := List.mem_map.mpr ⟨(x, k), List.mem_cons_self, rfl⟩
  have h32' : ∀ r ∈ ({ s with floodfills := s.floodfills.put x k } : State).ids, r.length = 32 := by
    intro r hr
    rcases hid r hr with rfl | hr
    · exact hx
    · exact h32 r hr
  have hst : ({ s with floodfills := s.floodfills.put x k } : State).storeTarget (t 1) = some x := by
    have hxm : x ∈ ({ s with floodfills := s.floodfills.put x k } : State).ids.filter (fun r => !decide (r ∈ s.stored)) := List.mem_filter.mpr ⟨hxi, by simpa using hn⟩
    have hl : ∀ r ∈ ({ s with floodfills := s.floodfills.put x k } : State).ids.filter (fun r => !decide (r ∈ s.stored)), r.length = 32 := fun r hr => h32' r (List.mem_filter.mp hr).1
    unfold State.storeTarget
    cases hg : Netdb.getClosest (t 1).target (({ s with floodfills := s.floodfills.put x k } : State).ids.filter fun r => !decide (r ∈ s.stored)) with
    | none => rw [closest_none hl hg] at hxm; cases hxm
    | some f =>
      obtain ⟨hf, hm⟩ := closest_some hl hg
      dsimp only
      by_cases hfx : f = x
      · rw [hfx]
      · obtain ⟨hf1, hf2⟩ := List.mem_filter.mp hf
        rcases hid f hf1 with h | h
        · exact absurd h hfx
        · have := hc f h (by simpa using hf2) hfx
          have := hm x hxm
          omega
  obtain ⟨k', l, h1, h2⟩ := resend (chk := chk) (s := { s with floodfills := s.floodfills.put x k }) (d := d) (tm := tm) hd hp hw ht hpool hxi hst
  rw [show ({ s with floodfills := s.floodfills.put x k } : State).floodfills = s.floodfills.put x k from rfl, AMap.get_put, if_pos rfl] at h2
  injection h2 with h2
  subst h2
  exact ⟨l, h1⟩

/-- A search reply for another key changes nothing. -/
theorem C162_other_partial (chk : Bool) (s : State) (key : Bytes) (h : key ≠ s.key) (routers : List Bytes) (known : Bytes → Option Nat) (accept : Bytes → Bool) :
    s.step chk (.reply key routers known accept) = s := by
  unfold State.step State.searchReply
  split
  · rfl
  · dsimp only
    split
    · rfl
    · rw [if_pos (Ne.symm h)]

end Emissary.Publish
