import Verif.Model.Ssu2Socket
import Verif.Props.Ssu2Packet
import Verif.Props.Ssu2Block
/-!
# C253-C257: SSU2 connections from the first datagram to the last
-/
namespace Emissary.Ssu2.Socket
open Emissary Emissary.I2np Emissary.Ntcp2 Emissary.Ssu2
open scoped List

variable {C : Crypto} {chk : Bool} {valid : Bytes → Bool} {intro : Bytes}

/-! ## Specification -/

/-- The packets that the socket attributes to session `k` (C78 says which those are), in the order of their arrival. -/
def arrivals (C : Crypto) (chk : Bool) (valid : Bytes → Bool) (intro : Bytes) (k : Nat) : Sock → List Op → List Bytes
  | _, [] => []
  | s, o :: os =>
    (match o with
      | .datagram addr pkt _ =>
        if s.panicked then []
        else
          match route C chk intro s.sessions.get (s.dialled.get addr) pkt with
          | .deliver j p => if j = k then [p] else []
          | _ => []
      | _ => []) ++ arrivals C chk valid intro k (s.step C chk valid intro o) os

/-- Everything that has reached session `k`: what it has taken and what waits in its channel. -/
def reached (s : Sock) (k : Nat) : List Bytes :=
  match s.all[k]? with
  | none => []
  | some x => x.taken ++ x.queue

/-- What waits in the channel of session `k`. -/
def waits (s : Sock) (k : Nat) : List Bytes :=
  match s.all[k]? with
  | none => []
  | some x => x.queue

/-- A data packet as the peer makes it: the header masked with the receiver's introduction key and the session's header key, the payload sealed
under the session's key and the packet number. -/
def dataPacket (C : Crypto) (intro : Bytes) (kc : KeyCtx) (dst n : Nat) (payload : Bytes) : Bytes :=
  let p := C.seal kc.kData n (dataHeader dst n) payload
  xr (le 8 dst) (C.ks intro (iv1 p) 8) ++ (xr (half2 n 6 0 0 0) (C.ks kc.kHeader2 (iv2 p) 8) ++ p)

/-! ## Lemmas -/

theorem run_nil (s : Sock) : s.run C chk valid intro [] = s := rfl

theorem run_cons (s : Sock) (o : Op) (os : List Op) :
    s.run C chk valid intro (o :: os) = (s.step C chk valid intro o).run C chk valid intro os := rfl

theorem run_append (s : Sock) (os os' : List Op) :
    s.run C chk valid intro (os ++ os') = (s.run C chk valid intro os).run C chk valid intro os' := List.foldl_append ..

theorem run_panicked (s : Sock) (h : s.panicked = true) (os : List Op) : s.run C chk valid intro os = s := by
  induction os with
  | nil => rfl
  | cons o os ih =>
    rw [run_cons]
    have : s.step C chk valid intro o = s := by simp [Sock.step, h]
    rw [this, ih]

theorem on_get (s : Sock) (j k : Nat) (f : Sess → Sess) : (s.on j f).all[k]? = if j = k then s.all[k]?.map f else s.all[k]? := by
  simp only [Sock.on, List.getElem?_modify]
  split
  · rfl
  · cases s.all[k]? <;> rfl

theorem modify_set (l : List Sess) (k : Nat) (x : Sess) (f : Sess → Sess) (h : l[k]? = some x) : l.modify k f = l.set k (f x) := by
  apply List.ext_getElem?
  intro i
  obtain ⟨hlt, _⟩ := List.getElem?_eq_some_iff.mp h
  rw [List.getElem?_modify, List.getElem?_set]
  by_cases e : k = i
  · subst e; simp_all
  · simp [e]

theorem on_same (s : Sock) (k : Nat) (x : Sess) (f : Sess → Sess) (h : s.all[k]? = some x) (hf : f x = x) : s.on k f = s := by
  obtain ⟨hlt, hg⟩ := List.getElem?_eq_some_iff.mp h
  have e : s.all.modify k f = s.all := by
    rw [modify_set _ _ _ _ h, hf, ← hg, List.set_getElem_self]
  simp only [Sock.on, e]

theorem append_get (l : List Sess) (k : Nat) (x : Sess) (h : (l ++ [({} : Sess)])[k]? = some x) : l[k]? = some x ∨ (l[k]? = none ∧ x = {}) := by
  rcases Nat.lt_trichotomy k l.length with hk | hk | hk
  · rw [List.getElem?_append_left hk] at h; exact .inl h
  · subst hk
    simp at h
    exact .inr ⟨by simp, h.symm⟩
  · rw [List.getElem?_eq_none (by simp; omega)] at h; cases h

/-- How a step changes one session: not at all, by a packet, by taking a packet, by a packet number, or in its phase. -/
inductive Moves (C : Crypto) (chk : Bool) (valid : Bytes → Bool) (s : Sock) (k : Nat) : Op → Sess → Sess → Prop
  | same (o x) : Moves C chk valid s k o x x
  | push (addr pkt b p x) : Moves C chk valid s k (.datagram addr pkt b) x (x.push p)
  | up (peer ctx num) (x : Sess) : x.phase = .pending →
      Moves C chk valid s k (.negotiated k peer ctx num) x { x with phase := .unvalidated peer, ctx := ctx, nextNum := num }
  | fail (peer) (x : Sess) : x.phase = .pending → Moves C chk valid s k (.gaveUp k peer) x { x with phase := .gone }
  | accept (peer) (x : Sess) : s.waiting.get peer = some k →
      Moves C chk valid s k (.accept peer) x { x with phase := .active peer, told := x.told ++ [true] }
  | reject (peer) (x : Sess) : s.waiting.get peer = some k → Moves C chk valid s k (.reject peer) x { x with phase := .gone }
  | take (x) : Moves C chk valid s k (.take k) x (x.take C chk valid)
  | sent (x : Sess) : Moves C chk valid s k (.sent k) x { x with nextNum := x.nextNum + 1 }
  | reap (peer reason) (x : Sess) (pkt) : x.phase = .ended peer reason →
      terminationPacket C x.ctx.intro x.ctx.send x.ctx.dst x.nextNum reason = .ok pkt →
      Moves C chk valid s k (.reap k) x { x with phase := .terminating peer }

/-- Every step moves a session in one of these ways, or adds a new one. -/
theorem step_moves (s : Sock) (o : Op) (k : Nat) (y : Sess) (h : (s.step C chk valid intro o).all[k]? = some y) :
    (∃ x, s.all[k]? = some x ∧ Moves C chk valid s k o x y) ∨ (s.all[k]? = none ∧ y = {}) := by
  unfold Sock.step at h
  split at h
  · exact .inl ⟨y, h, .same ..⟩
  · cases o with
    | datagram addr pkt b =>
      simp only [Sock.datagram] at h
      split at h
      · next j p _ =>
        rw [on_get] at h
        split at h
        · next e =>
          obtain ⟨x, hx, rfl⟩ := Option.map_eq_some_iff.mp h
          exact .inl ⟨x, hx, .push ..⟩
        · exact .inl ⟨y, h, .same ..⟩
      · split at h
        · rcases append_get _ _ _ h with h | h
          · exact .inl ⟨y, h, .same ..⟩
          · exact .inr h
        · exact .inl ⟨y, h, .same ..⟩
      · exact .inl ⟨y, h, .same ..⟩
      · exact .inl ⟨y, h, .same ..⟩
      · exact .inl ⟨y, h, .same ..⟩
    | connect addr key cid =>
      rcases append_get _ _ _ h with h | h
      · exact .inl ⟨y, h, .same ..⟩
      · exact .inr h
    | negotiated j peer ctx num =>
      simp only [Sock.negotiated] at h
      split at h
      · next e =>
        simp only [on_get] at h
        split at h
        · next e' =>
          subst e'
          obtain ⟨x, hx, rfl⟩ := Option.map_eq_some_iff.mp h
          rw [hx] at e
          exact .inl ⟨x, hx, .up _ _ _ _ (by simpa using e)⟩
        · exact .inl ⟨y, h, .same ..⟩
      · exact .inl ⟨y, h, .same ..⟩
    | gaveUp j peer =>
      simp only [Sock.gaveUp] at h
      split at h
      · next e =>
        simp only [on_get] at h
        split at h
        · next e' =>
          subst e'
          obtain ⟨x, hx, rfl⟩ := Option.map_eq_some_iff.mp h
          rw [hx] at e
          exact .inl ⟨x, hx, .fail _ _ (by simpa using e)⟩
        · exact .inl ⟨y, h, .same ..⟩
      · exact .inl ⟨y, h, .same ..⟩
    | accept peer =>
      simp only [Sock.accept] at h
      split at h
      · split at h <;> exact .inl ⟨y, h, .same ..⟩
      · next j e =>
        simp only [on_get] at h
        split at h
        · next e' =>
          subst e'
          obtain ⟨x, hx, rfl⟩ := Option.map_eq_some_iff.mp h
          exact .inl ⟨x, hx, .accept _ _ e⟩
        · exact .inl ⟨y, h, .same ..⟩
    | reject peer =>
      simp only [Sock.reject] at h
      split at h
      · split at h <;> exact .inl ⟨y, h, .same ..⟩
      · next j e =>
        simp only [on_get] at h
        split at h
        · next e' =>
          subst e'
          obtain ⟨x, hx, rfl⟩ := Option.map_eq_some_iff.mp h
          exact .inl ⟨x, hx, .reject _ _ e⟩
        · exact .inl ⟨y, h, .same ..⟩
    | take j =>
      simp only [on_get] at h
      split at h
      · next e' =>
        subst e'
        obtain ⟨x, hx, rfl⟩ := Option.map_eq_some_iff.mp h
        exact .inl ⟨x, hx, .take _⟩
      · exact .inl ⟨y, h, .same ..⟩
    | sent j =>
      simp only [on_get] at h
      split at h
      · next e' =>
        subst e'
        obtain ⟨x, hx, rfl⟩ := Option.map_eq_some_iff.mp h
        exact .inl ⟨x, hx, .sent _⟩
      · exact .inl ⟨y, h, .same ..⟩
    | reap j =>
      simp only [Sock.reap] at h
      split at h
      · exact .inl ⟨y, h, .same ..⟩
      · next x0 hx0 =>
        split at h
        · next peer reason hp =>
          split at h
          · next pkt ht =>
            rw [on_get] at h
            split at h
            · next e' =>
              subst e'
              obtain ⟨x, hx, rfl⟩ := Option.map_eq_some_iff.mp h
              rw [hx0] at hx
              cases hx
              exact .inl ⟨x0, hx0, .reap _ _ _ _ hp ht⟩
            · exact .inl ⟨y, h, .same ..⟩
          · exact .inl ⟨y, h, .same ..⟩
        · exact .inl ⟨y, h, .same ..⟩
    | pass ms => exact .inl ⟨y, h, .same ..⟩

/-- A session that exists goes on existing. -/
theorem step_exists (s : Sock) (o : Op) (k : Nat) (h : k < s.all.length) : k < (s.step C chk valid intro o).all.length := by
  unfold Sock.step
  split
  · exact h
  · cases o <;> simp only [Sock.datagram, Sock.connect, Sock.negotiated, Sock.gaveUp, Sock.accept, Sock.reject, Sock.reap, Sock.on] <;>
      (repeat' split) <;> first | exact h | (simp; done) | (simp; omega)

theorem get_some {s : Sock} {k : Nat} (h : k < s.all.length) : ∃ x, s.all[k]? = some x := ⟨_, List.getElem?_eq_getElem h⟩

theorem lt_of_get {s : Sock} {k : Nat} {x : Sess} (h : s.all[k]? = some x) : k < s.all.length := (List.getElem?_eq_some_iff.mp h).1

theorem take_content (x : Sess) : (x.take C chk valid).taken ++ (x.take C chk valid).queue = x.taken ++ x.queue := by
  unfold Sess.take
  repeat' split
  all_goals simp_all

theorem push_content (x : Sess) (p : Bytes) :
    ((x.push p).taken ++ (x.push p).queue = x.taken ++ x.queue) ∨ ((x.push p).taken ++ (x.push p).queue = x.taken ++ x.queue ++ [p]) := by
  unfold Sess.push
  split
  · exact .inr (by simp)
  · exact .inl rfl

/-! ## Invariant -/

/-- Registered sessions exist, and what waits for the manager's decision is a session in that phase. -/
structure Inv (s : Sock) : Prop where
  known : ∀ c k, s.sessions.get c = some k → k < s.all.length
  wait : ∀ p k, s.waiting.get p = some k → ∃ x, s.all[k]? = some x ∧ x.phase = .unvalidated p

theorem Inv.empty : Inv {} := ⟨fun c k h => by simp at h, fun p k h => by simp at h⟩

theorem push_phase (x : Sess) (p : Bytes) : (x.push p).phase = x.phase := by unfold Sess.push; split <;> rfl

theorem take_unvalidated (x : Sess) (p : Bytes) (h : x.phase = .unvalidated p) : x.take C chk valid = x := by
  unfold Sess.take
  split
  · rfl
  · simp [h]

/-- The registered sessions change only when a session is added. -/
theorem step_sessions (s : Sock) (o : Op) :
    (s.step C chk valid intro o).sessions = s.sessions ∨
    ∃ c, (s.step C chk valid intro o).sessions = s.sessions.put c s.all.length ∧
      (s.step C chk valid intro o).all = s.all ++ [({} : Sess)] ∧ ((∃ a key, o = .connect a key c) ∨ (∃ a pkt, o = .datagram a pkt true ∧
        ∃ src n p, route C chk intro s.sessions.get (s.dialled.get a) pkt = .inbound c src n p)) := by
  unfold Sock.step
  split
  · exact .inl rfl
  · cases o with
    | datagram addr pkt b =>
      simp only [Sock.datagram]
      split
      · exact .inl rfl
      · next c src n p e =>
        split
        · next hb => subst hb; exact .inr ⟨c, rfl, rfl, .inr ⟨addr, pkt, rfl, src, n, p, e⟩⟩
        · exact .inl rfl
      · exact .inl rfl
      · exact .inl rfl
      · exact .inl rfl
    | connect addr key cid => exact .inr ⟨cid, rfl, rfl, .inl ⟨addr, key, rfl⟩⟩
    | negotiated j peer ctx num => simp only [Sock.negotiated]; split <;> exact .inl rfl
    | gaveUp j peer => simp only [Sock.gaveUp]; split <;> exact .inl rfl
    | accept peer => simp only [Sock.accept]; repeat' split
                     all_goals exact .inl rfl
    | reject peer => simp only [Sock.reject]; repeat' split
                     all_goals exact .inl rfl
    | take j => exact .inl rfl
    | sent j => exact .inl rfl
    | reap j => simp only [Sock.reap]; repeat' split
                all_goals exact .inl rfl
    | pass ms => exact .inl rfl

theorem Inv.step {s : Sock} (hs : Inv s) (o : Op) : Inv (s.step C chk valid intro o) := by
  constructor
  · intro c k h
    rcases step_sessions (C := C) (chk := chk) (valid := valid) (intro := intro) s o with e | ⟨c', e, ea, _⟩
    · rw [e] at h; exact step_exists s o k (hs.known c k h)
    · rw [e, AMap.get_put] at h
      rw [ea, List.length_append, List.length_singleton]
      split at h
      · cases h; omega
      · have := hs.known c k h; omega
  · intro p k h
    by_cases hp : s.panicked
    · have e : s.step C chk valid intro o = s := by simp [Sock.step, hp]
      rw [e] at h ⊢; exact hs.wait p k h
    -- either the entry was there before, or it was made by this step
    have key : (s.waiting.get p = some k ∧ o ≠ .accept p ∧ o ≠ .reject p) ∨
        (∃ ctx num x, o = .negotiated k p ctx num ∧ s.all[k]? = some x ∧ x.phase = .pending) := by
      have wait_id : ∀ s' : Sock, s'.waiting = s.waiting → s'.waiting.get p = some k → s.waiting.get p = some k :=
        fun s' e h => by rw [← e]; exact h
      simp only [Sock.step, hp] at h
      cases o with
      | datagram addr pkt b =>
        refine .inl ⟨wait_id _ ?_ h, by simp, by simp⟩
        simp only [Bool.false_eq_true, if_false, Sock.datagram, Sock.on]; repeat' split
        all_goals rfl
      | connect addr key cid => exact .inl ⟨h, by simp, by simp⟩
      | negotiated j peer ctx num =>
        simp only [Bool.false_eq_true, if_false, Sock.negotiated, Sock.on] at h
        split at h
        · next e =>
          simp only [AMap.get_put] at h
          split at h
          · next e' =>
            cases h; subst e'
            obtain ⟨x, hx, hx'⟩ := Option.map_eq_some_iff.mp e
            exact .inr ⟨ctx, num, x, rfl, hx, hx'⟩
          · exact .inl ⟨h, by simp, by simp⟩
        · exact .inl ⟨h, by simp, by simp⟩
      | gaveUp j peer =>
        refine .inl ⟨wait_id _ ?_ h, by simp, by simp⟩
        simp only [Bool.false_eq_true, if_false, Sock.gaveUp, Sock.on]; split <;> rfl
      | accept peer =>
        simp only [Bool.false_eq_true, if_false, Sock.accept, Sock.on] at h
        split at h
        · next e =>
          have h' : s.waiting.get p = some k := by
            split at h <;> exact h
          exact .inl ⟨h', fun e' => (by injection e' with e'; subst e'; rw [e] at h'; cases h'), by simp⟩
        · simp only [AMap.get_del] at h
          split at h
          · cases h
          · next e => exact .inl ⟨h, fun e' => e (by injection e' with e'; exact e'.symm), by simp⟩
      | reject peer =>
        simp only [Bool.false_eq_true, if_false, Sock.reject, Sock.on] at h
        split at h
        · next e =>
          have h' : s.waiting.get p = some k := by
            split at h <;> exact h
          exact .inl ⟨h', by simp, fun e' => (by injection e' with e'; subst e'; rw [e] at h'; cases h')⟩
        · simp only [AMap.get_del] at h
          split at h
          · cases h
          · next e => exact .inl ⟨h, by simp, fun e' => e (by injection e' with e'; exact e'.symm)⟩
      | take j => exact .inl ⟨h, by simp, by simp⟩
      | sent j => exact .inl ⟨h, by simp, by simp⟩
      | reap j =>
        refine .inl ⟨wait_id _ ?_ h, by simp, by simp⟩
        simp only [Bool.false_eq_true, if_false, Sock.reap, Sock.on]; repeat' split
        all_goals rfl
      | pass ms => exact .inl ⟨h, by simp, by simp⟩
    rcases key with ⟨hw, ha, hr⟩ | ⟨ctx, num, x, rfl, hx, hxp⟩
    · obtain ⟨x, hx, hxp⟩ := hs.wait p k hw
      obtain ⟨y, hy⟩ := get_some (step_exists (C := C) (chk := chk) (valid := valid) (intro := intro) s o k (lt_of_get hx))
      refine ⟨y, hy, ?_⟩
      rcases step_moves s o k y hy with ⟨x', hx', m⟩ | ⟨hn, _⟩
      · rw [hx] at hx'; cases hx'
        cases m with
        | same => exact hxp
        | push => rw [push_phase]; exact hxp
        | up _ _ _ _ e => rw [hxp] at e; cases e
        | fail _ _ e => rw [hxp] at e; cases e
        | accept q _ e =>
          obtain ⟨x', hx', e'⟩ := hs.wait q k e
          rw [hx] at hx'; cases hx'
          rw [hxp] at e'; injection e' with e'
          subst e'; exact absurd rfl ha
        | reject q _ e =>
          obtain ⟨x', hx', e'⟩ := hs.wait q k e
          rw [hx] at hx'; cases hx'
          rw [hxp] at e'; injection e' with e'
          subst e'; exact absurd rfl hr
        | take => rw [take_unvalidated _ _ hxp]; exact hxp
        | sent => exact hxp
        | reap _ _ _ _ e => rw [hxp] at e; cases e
      · rw [hx] at hn; cases hn
    · simp only [Sock.step, hp, Bool.false_eq_true, if_false, Sock.negotiated, hx, hxp, Option.map_some, if_true, on_get]
      exact ⟨_, rfl, rfl⟩

theorem Inv.run {s : Sock} (hs : Inv s) (os : List Op) : Inv (s.run C chk valid intro os) := by
  induction os generalizing s with
  | nil => exact hs
  | cons o os ih => exact ih (hs.step o)

/-! ## C253: packets reach their session -/

theorem take_queue (x : Sess) : (x.take C chk valid).queue.length ≤ x.queue.length := by
  unfold Sess.take
  repeat' split
  all_goals simp_all

/-- A packet is only handed to a registered session. -/
theorem route_known {σ : Type} {sessions : Nat → Option σ} {pending : Option Bytes} {pkt p : Bytes} {j : σ}
    (h : route C chk intro sessions pending pkt = .deliver j p) : ∃ c, sessions c = some j := by
  unfold route at h
  repeat' split at h
  all_goals first | (cases h; done) | skip
  · next e => injection h with h1 h2; subst h1; exact ⟨_, e⟩
  · next e => injection h with h1 h2; subst h1; exact ⟨_, e⟩

/-- What one step brings to session `k`. -/
def arrival (C : Crypto) (chk : Bool) (intro : Bytes) (k : Nat) (s : Sock) : Op → List Bytes
  | .datagram addr pkt _ =>
    if s.panicked then []
    else
      match route C chk intro s.sessions.get (s.dialled.get addr) pkt with
      | .deliver j p => if j = k then [p] else []
      | _ => []
  | _ => []

theorem arrivals_cons (k : Nat) (s : Sock) (o : Op) (os : List Op) :
    arrivals C chk valid intro k s (o :: os) =
      arrival C chk intro k s o ++ arrivals C chk valid intro k (s.step C chk valid intro o) os := by
  cases o <;> rfl

/-- A step either pushes the packet that arrived, or changes nothing of what has reached the session. -/
theorem step_reached (s : Sock) (o : Op) (k : Nat) (y : Sess) (h : (s.step C chk valid intro o).all[k]? = some y) :
    (∃ x p, s.all[k]? = some x ∧ arrival C chk intro k s o = [p] ∧ y = x.push p) ∨
    (arrival C chk intro k s o = [] ∧ y.taken ++ y.queue = reached s k ∧ y.queue.length ≤ (waits s k).length ∧
      ((∃ x, s.all[k]? = some x ∧ Moves C chk valid s k o x y) ∨ (s.all[k]? = none ∧ y = {}))) ∨
    (s.all[k]? = none ∧ y = {}) := by
  have hm := step_moves s o k y h
  by_cases ha : arrival C chk intro k s o = []
  · rcases hm with ⟨x, hx, m⟩ | hn
    · refine .inr (.inl ⟨ha, ?_, ?_, .inl ⟨x, hx, m⟩⟩) <;> simp only [reached, waits, hx]
      · cases m with
        | push addr pkt b p =>
          by_cases hp : s.panicked
          · simp only [Sock.step, hp, if_true] at h
            rw [hx] at h; injection h with h; rw [← h]
          · simp only [arrival, hp] at ha
            simp only [Sock.step, hp, Bool.false_eq_true, if_false, Sock.datagram] at h
            simp only [Bool.false_eq_true, if_false] at ha
            split at ha
            · next j q e =>
              rw [e] at h
              simp only [on_get] at h
              split at ha
              · cases ha
              · next hj => rw [if_neg hj, hx] at h; injection h with h; rw [← h]
            · next e =>
              split at h
              · next j q e' => exact absurd e' (e j q)
              · split at h
                · rcases append_get _ _ _ h with h | ⟨h, _⟩
                  · rw [hx] at h; injection h with h; rw [← h]
                  · rw [hx] at h; cases h
                · rw [hx] at h; injection h with h; rw [← h]
              all_goals (rw [hx] at h; injection h with h; rw [← h])
        | take => exact take_content x
        | _ => rfl
      · cases m with
        | push addr pkt b p =>
          by_cases hp : s.panicked
          · simp only [Sock.step, hp, if_true] at h
            rw [hx] at h; injection h with h; rw [← h]; exact Nat.le_refl _
          · simp only [arrival, hp] at ha
            simp only [Sock.step, hp, Bool.false_eq_true, if_false, Sock.datagram] at h
            simp only [Bool.false_eq_true, if_false] at ha
            split at ha
            · next j q e =>
              rw [e] at h
              simp only [on_get] at h
              split at ha
              · cases ha
              · next hj => rw [if_neg hj, hx] at h; injection h with h; rw [← h]; exact Nat.le_refl _
            · next e =>
              split at h
              · next j q e' => exact absurd e' (e j q)
              · split at h
                · rcases append_get _ _ _ h with h | ⟨h, _⟩
                  · rw [hx] at h; injection h with h; rw [← h]; exact Nat.le_refl _
                  · rw [hx] at h; cases h
                · rw [hx] at h; injection h with h; rw [← h]; exact Nat.le_refl _
              all_goals (rw [hx] at h; injection h with h; rw [← h]; exact Nat.le_refl _)
        | take => exact take_queue x
        | _ => exact Nat.le_refl _
    · exact .inr (.inr hn)
  · cases o with
    | datagram addr pkt b =>
      simp only [arrival] at ha ⊢
      by_cases hp : s.panicked
      · simp [hp] at ha
      · simp only [hp, Bool.false_eq_true, if_false] at ha ⊢
        split at ha
        · next j p e =>
          by_cases hj : j = k
          · simp only [Sock.step, hp, Bool.false_eq_true, if_false, Sock.datagram, e, on_get, hj, if_true] at h
            obtain ⟨x, hx, rfl⟩ := Option.map_eq_some_iff.mp h
            exact .inl ⟨x, p, hx, by simp [e, hj], rfl⟩
          · simp [hj] at ha
        · simp at ha
    | _ => simp [arrival] at ha

theorem step_none {s : Sock} {o : Op} {k : Nat} (h : (s.step C chk valid intro o).all[k]? = none) : s.all[k]? = none := by
  rcases Nat.lt_or_ge k s.all.length with hk | hk
  · have := step_exists (C := C) (chk := chk) (valid := valid) (intro := intro) s o k hk
    rw [List.getElem?_eq_none_iff] at h; omega
  · exact List.getElem?_eq_none hk

/-- C253: whatever happens, what has reached a session is what was addressed to it, in the order of arrival: nothing is invented, duplicated,
reordered or taken from another session's packets. -/
theorem C253_in_order (os : List Op) (k : Nat) :
    reached (({} : Sock).run C chk valid intro os) k <+ arrivals C chk valid intro k {} os := by
  suffices h : ∀ s, reached (s.run C chk valid intro os) k <+ reached s k ++ arrivals C chk valid intro k s os by
    simpa [reached] using h {}
  induction os with
  | nil => intro s; simp [run_nil, arrivals]
  | cons o os ih =>
    intro s
    rw [run_cons, arrivals_cons, ← List.append_assoc]
    refine (ih _).trans (List.Sublist.append ?_ (List.Sublist.refl _))
    cases hy : (s.step C chk valid intro o).all[k]? with
    | none => simp [reached, hy]
    | some y =>
      have e : reached (s.step C chk valid intro o) k = y.taken ++ y.queue := by simp only [reached, hy]
      rw [e]
      rcases step_reached s o k y hy with ⟨x, p, hx, ha, rfl⟩ | ⟨ha, hr, _⟩ | ⟨_, rfl⟩
      · simp only [reached, hx, ha]
        rcases push_content x p with h | h
        · rw [h]; exact List.sublist_append_left ..
        · rw [h]; exact List.Sublist.refl _
      · rw [ha, hr, List.append_nil]; exact List.Sublist.refl _
      · exact List.nil_sublist _

/-- A session that is gone does not come back. -/
theorem gone_step {s : Sock} (hs : Inv s) (o : Op) (k : Nat) (x y : Sess) (hx : s.all[k]? = some x) (hl : x.listening = false)
    (hy : (s.step C chk valid intro o).all[k]? = some y) : y.listening = false := by
  rcases step_moves s o k y hy with ⟨x', hx', m⟩ | ⟨hn, _⟩
  · rw [hx] at hx'; cases hx'
    cases m with
    | same => exact hl
    | push _ _ _ p => simp only [Sess.listening, push_phase]; exact hl
    | up _ _ _ _ e => simp [Sess.listening, e] at hl
    | fail => rfl
    | accept q _ e =>
      obtain ⟨x', hx', e'⟩ := hs.wait q k e
      rw [hx] at hx'; cases hx'
      simp [Sess.listening, e'] at hl
    | reject => rfl
    | take =>
      unfold Sess.take
      repeat' split
      all_goals simp_all [Sess.listening]
    | sent => exact hl
    | reap _ _ _ _ e => simp [Sess.listening, e] at hl
  · rw [hx] at hn; cases hn

theorem gone_run {s : Sock} (hs : Inv s) (os : List Op) (k : Nat) (x y : Sess) (hx : s.all[k]? = some x) (hl : x.listening = false)
    (hy : (s.run C chk valid intro os).all[k]? = some y) : y.listening = false := by
  induction os generalizing s x with
  | nil => rw [run_nil, hx] at hy; cases hy; exact hl
  | cons o os ih =>
    obtain ⟨z, hz⟩ := get_some (step_exists (C := C) (chk := chk) (valid := valid) (intro := intro) s o k (lt_of_get hx))
    exact ih (hs.step o) z hz (gone_step hs o k x z hx hl hz) hy

theorem arrival_none {s : Sock} (hs : Inv s) (o : Op) (k : Nat) (hnone : s.all[k]? = none) : arrival C chk intro k s o = [] := by
  cases o with
  | datagram addr pkt b =>
    simp only [arrival]
    split
    · rfl
    · split
      · next j p e =>
        split
        · next hj =>
          subst hj
          obtain ⟨c, hc⟩ := route_known e
          exact absurd (hs.known _ _ hc) (by rw [List.getElem?_eq_none_iff] at hnone; omega)
        · rfl
      · rfl
  | _ => rfl

/-- C253: … and nothing is lost, as long as the session exists and no more than 256 packets come in while it takes none: for instance if 256
packets came in all. Missing: more packets, when the session is slow; see `C253_full_violated`. -/
theorem C253_none_lost_partial (os : List Op) (k : Nat) (y : Sess) (hy : (({} : Sock).run C chk valid intro os).all[k]? = some y)
    (hl : y.listening = true) (hn : (arrivals C chk valid intro k {} os).length ≤ 256) :
    y.taken ++ y.queue = arrivals C chk valid intro k {} os := by
  suffices h : ∀ s, Inv s → (s.run C chk valid intro os).all[k]? = some y →
      (waits s k).length + (arrivals C chk valid intro k s os).length ≤ 256 →
      y.taken ++ y.queue = reached s k ++ arrivals C chk valid intro k s os by
    simpa [reached] using h {} Inv.empty hy (by simpa [waits] using hn)
  clear hy hn
  induction os with
  | nil =>
    intro s hs hy _
    rw [run_nil] at hy
    simp [reached, hy, arrivals]
  | cons o os ih =>
    intro s hs hy hn
    rw [run_cons] at hy
    rw [arrivals_cons] at hn ⊢
    rw [List.length_append] at hn
    rw [← List.append_assoc]
    cases hz : (s.step C chk valid intro o).all[k]? with
    | none =>
      have hnone := step_none hz
      have ha := arrival_none (C := C) (chk := chk) (intro := intro) hs o k hnone
      rw [ha, List.append_nil]
      have e : reached (s.step C chk valid intro o) k = reached s k := by simp only [reached, hz, hnone]
      have e' : waits (s.step C chk valid intro o) k = waits s k := by simp only [waits, hz, hnone]
      rw [← e]
      refine ih _ (hs.step o) hy ?_
      rw [e']; rw [ha] at hn; simpa using hn
    | some z =>
      have er : reached (s.step C chk valid intro o) k = z.taken ++ z.queue := by simp only [reached, hz]
      have ew : waits (s.step C chk valid intro o) k = z.queue := by simp only [waits, hz]
      rcases step_reached s o k z hz with ⟨x, p, hx, ha, rfl⟩ | ⟨ha, hr, hq, _⟩ | ⟨hnone, rfl⟩
      · have hxl : x.listening = true := by
          cases hxl : x.listening
          · have := gone_run (C := C) (chk := chk) (valid := valid) (intro := intro) hs (o :: os) k x y hx hxl (by rw [run_cons]; exact hy)
            rw [hl] at this; cases this
          · rfl
        have hw : waits s k = x.queue := by simp only [waits, hx]
        rw [ha, hw] at hn
        simp only [List.length_singleton] at hn
        have hpush : x.push p = { x with queue := x.queue ++ [p] } := by
          rw [Sess.push, if_pos ⟨hxl, by simp only [channelSize]; omega⟩]
        have hpr : reached s k ++ arrival C chk intro k s o = reached (s.step C chk valid intro o) k := by
          rw [er, hpush, ha]; simp [reached, hx]
        rw [hpr]
        refine ih _ (hs.step o) hy ?_
        rw [ew, hpush]
        simp only [List.length_append, List.length_singleton]; omega
      · rw [ha, List.append_nil, ← hr, ← er]
        refine ih _ (hs.step o) hy ?_
        rw [ew]; rw [ha] at hn; simp only [List.length_nil] at hn; omega
      · have ha := arrival_none (C := C) (chk := chk) (intro := intro) hs o k hnone
        have e : reached s k = reached (s.step C chk valid intro o) k := by rw [er]; simp [reached, hnone]
        rw [ha, List.append_nil, e]
        refine ih _ (hs.step o) hy ?_
        rw [ew]; rw [ha] at hn; simp only [List.length_nil] at hn ⊢; omega

/-- C253: a packet that carries a registered connection id is put at the end of that session's channel, and nothing else changes. -/
theorem C253_delivered_partial (s : Sock) (hp : s.panicked = false) (k : Nat) (x : Sess) (hx : s.all[k]? = some x) (hl : x.listening = true)
    (hq : x.queue.length < 256) (addr pkt : Bytes) (b : Bool) (h24 : 24 ≤ pkt.length)
    (hc : s.sessions.get (connId C intro pkt) = some k) :
    s.step C chk valid intro (.datagram addr pkt b) =
      { s with all := s.all.set k { x with queue := x.queue ++ [unmasked C intro pkt] } } := by
  rw [Sock.step, if_neg (by simp [hp])]
  simp only [Sock.datagram, C78_own_key C chk intro s.sessions.get _ pkt h24 k hc, Sock.on]
  rw [modify_set _ _ _ _ hx]
  simp only [Sess.push, hl, channelSize, hq, and_self, if_true]

/-- C253 (violated): a packet for a session in whose channel 256 packets wait is thrown away, whoever sent it and whatever it contains. -/
theorem C253_full_violated (s : Sock) (hp : s.panicked = false) (k : Nat) (x : Sess) (hx : s.all[k]? = some x)
    (hq : x.queue.length = 256) (addr pkt : Bytes) (b : Bool) (h24 : 24 ≤ pkt.length)
    (hc : s.sessions.get (connId C intro pkt) = some k) :
    s.step C chk valid intro (.datagram addr pkt b) = s := by
  rw [Sock.step, if_neg (by simp [hp])]
  simp only [Sock.datagram, C78_own_key C chk intro s.sessions.get _ pkt h24 k hc]
  exact on_same s k x _ hx (by simp only [Sess.push, channelSize, hq, Nat.lt_irrefl, and_false, if_false])

/-! ## C254: the end of a connection -/

theorem route_dataPacket (hC : C.Lawful) (kc : KeyCtx) (dst n : Nat) (hdst : dst < 2 ^ 64) (hn : n < 2 ^ 32) (payload : Bytes)
    (hlen : 8 ≤ payload.length) (sessions : Nat → Option σ) (pending : Option Bytes) (tx : σ) (h : sessions dst = some tx) :
    ∃ p, route C chk intro sessions pending (dataPacket C intro kc dst n payload) = .deliver tx p ∧ openData C kc p = .ok (n, payload) := by
  have hp : 24 ≤ (C.seal kc.kData n (dataHeader dst n) payload).length := by rw [seal_len hC]; omega
  refine ⟨_, ?_, openData_eq hC kc dst n hn _ hlen⟩
  rw [dataPacket]
  rw [route, new_eq _ _ (by simp only [List.length_append]; omega)]
  simp only
  rw [← List.append_assoc, iv1_append _ _ hp, List.append_assoc, dstId_eq hC _ _ _ _ _ (le_len ..), unle_le8 _ hdst]
  simp only [h]

/-- The socket sees that a session has ended: it panics. -/
theorem C254_end_panics_violated (hC : C.Lawful) (s : Sock) (k : Nat) (x : Sess) (peer : Bytes) (reason : Nat)
    (hx : s.all[k]? = some x) (hph : x.phase = .ended peer reason) : (s.step C chk valid intro (.reap k)).panicked = true := by
  unfold Sock.step
  split
  · next h => exact h
  · simp only [Sock.reap, hx, hph, C77_termination_panics_violated hC]

/-- C254 (violated): any peer with an active session can end the router. It sends the packet the specification gives for closing a session: a
data packet with a termination block, with any reason. The session ends, the socket wants to tell the peer, and panics. -/
theorem C254_peer_ends_router_violated (hC : C.Lawful) (s : Sock) (hp : s.panicked = false) (k : Nat) (x : Sess) (peer : Bytes)
    (hx : s.all[k]? = some x) (hph : x.phase = .active peer) (hq : x.queue = []) (cid : Nat) (hcid : cid < 2 ^ 64)
    (hc : s.sessions.get cid = some k) (n received reason : Nat) (hn : n < 2 ^ 32) (hrc : received < 2 ^ 64) (hr : reason < 256)
    (addr : Bytes) (b : Bool) :
    (s.run C chk valid intro [.datagram addr (dataPacket C intro x.ctx.recv cid n (Block.termination received reason).wire) b, .take k,
      .reap k]).panicked = true := by
  obtain ⟨p, hroute, hopen⟩ := route_dataPacket (chk := chk) (intro := intro) hC x.ctx.recv cid n hcid hn
    (Block.termination received reason).wire (by simp [Block.wire]) s.sessions.get (s.dialled.get addr) k hc
  have hparse := C38_blocks_roundtrip chk valid [Block.termination received reason] (by simp) (by simp [Block.Ok]; omega)
  simp only [List.map_cons, List.map_nil, List.flatten_cons, List.flatten_nil, List.append_nil, Block.seen] at hparse
  have hv : verdict C chk valid x.ctx.recv p = .ends reason := by
    simp only [verdict, hopen, hparse, endOf]
  rw [run_cons, run_cons, run_cons, run_nil]
  have h1 : s.step C chk valid intro (.datagram addr (dataPacket C intro x.ctx.recv cid n (Block.termination received reason).wire) b) =
      s.on k (Sess.push p) := by
    simp only [Sock.step, hp, Bool.false_eq_true, if_false, Sock.datagram, hroute]
  rw [h1]
  have h2 : (s.on k (Sess.push p)).step C chk valid intro (.take k) = (s.on k (Sess.push p)).on k (Sess.take C chk valid) := by
    have : (s.on k (Sess.push p)).panicked = false := hp
    simp only [Sock.step, this, Bool.false_eq_true, if_false]
  rw [h2]
  have hpush : x.push p = { x with queue := [p] } := by
    rw [Sess.push, if_pos ⟨by simp [Sess.listening, hph], by simp [hq, channelSize]⟩, hq]; rfl
  refine C254_end_panics_violated hC _ k (Sess.take C chk valid (x.push p)) peer reason ?_ ?_
  · simp only [on_get, if_true, hx, Option.map_some]
  · rw [hpush]
    simp only [Sess.take, hph, hv]

/-- C254 (violated): the transport manager is never told that an SSU2 connection is closed. -/
theorem C254_manager_never_told_violated (os : List Op) (peer : Bytes) :
    Event.closed peer ∉ (({} : Sock).run C chk valid intro os).events := by
  suffices h : ∀ s : Sock, Event.closed peer ∉ s.events → Event.closed peer ∉ (s.run C chk valid intro os).events from h {} (by simp)
  induction os with
  | nil => intro s h; exact h
  | cons o os ih =>
    intro s h
    refine ih _ ?_
    unfold Sock.step
    split
    · exact h
    · cases o <;> simp only [Sock.datagram, Sock.connect, Sock.negotiated, Sock.gaveUp, Sock.accept, Sock.reject, Sock.reap, Sock.on]
      all_goals (repeat' split)
      all_goals first | exact h | simp [h]

/-- What the transport manager is to hear of something that happens: of a handshake that has just ended, in a connection or, with a known router, without one. -/
def news (pending : Nat → Prop) : Op → Option Event → Prop
  | .negotiated k peer _ _, e => (pending k ∧ e = some (.established peer)) ∨ (¬ pending k ∧ e = none)
  | .gaveUp k peer, e => (pending k ∧ e = peer.map .failure) ∨ (¬ pending k ∧ e = none)
  | _, e => e = none

/-- C256: the transport manager hears of each connection when its handshake ends, of each dial that has failed with a known router, each once, and of nothing else. -/
theorem C256_manager (s : Sock) (hp : s.panicked = false) (o : Op) :
    ∃ e, news (fun k => ∃ x, s.all[k]? = some x ∧ x.phase = .pending) o e ∧ (s.step C chk valid intro o).events = s.events ++ e.toList := by
  have key : ∀ k : Nat, (s.all[k]?.map (·.phase)) = some Phase.pending ↔ ∃ x, s.all[k]? = some x ∧ x.phase = .pending := fun k => by
    cases s.all[k]? <;> simp
  unfold Sock.step
  rw [if_neg (by rw [hp]; decide)]
  cases o with
  | negotiated k peer ctx num =>
    by_cases h : ∃ x, s.all[k]? = some x ∧ x.phase = .pending
    · exact ⟨_, .inl ⟨h, rfl⟩, by simp only [Sock.negotiated, (key k).2 h, if_true]; rfl⟩
    · exact ⟨_, .inr ⟨h, rfl⟩, by simp only [Sock.negotiated]; rw [if_neg (fun x => h ((key k).1 x))]; simp⟩
  | gaveUp k peer =>
    by_cases h : ∃ x, s.all[k]? = some x ∧ x.phase = .pending
    · exact ⟨_, .inl ⟨h, rfl⟩, by simp only [Sock.gaveUp, (key k).2 h, if_true]; cases peer <;> rfl⟩
    · exact ⟨_, .inr ⟨h, rfl⟩, by simp only [Sock.gaveUp]; rw [if_neg (fun x => h ((key k).1 x))]; simp⟩
  | _ =>
    refine ⟨none, rfl, ?_⟩
    simp only [Sock.datagram, Sock.connect, Sock.accept, Sock.reject, Sock.reap, Sock.on]
    (repeat' split)
    all_goals simp

/-- C254: nothing else ends the router: in a build without debug assertions, if datagrams of at least 64 bytes come (for shorter ones see C76)
and the socket has panicked, some session had ended. Missing: what should happen when a session ends; see `C254_end_panics_violated`. -/
theorem C254_only_ends_panic_partial (hC : C.Lawful) (os : List Op)
    (h64 : ∀ addr pkt b, Op.datagram addr pkt b ∈ os → 64 ≤ pkt.length)
    (h : (({} : Sock).run C false valid intro os).panicked = true) :
    ∃ (k : Nat) (x : Sess) (peer : Bytes) (reason : Nat),
      (({} : Sock).run C false valid intro os).all[k]? = some x ∧ x.phase = .ended peer reason := by
  suffices H : ∀ s : Sock, (s.panicked = true → ∃ (k : Nat) (x : Sess) (peer : Bytes) (reason : Nat),
      s.all[k]? = some x ∧ x.phase = .ended peer reason) →
      (s.run C false valid intro os).panicked = true → ∃ (k : Nat) (x : Sess) (peer : Bytes) (reason : Nat),
      (s.run C false valid intro os).all[k]? = some x ∧ x.phase = .ended peer reason from H {} (by simp) h
  clear h
  induction os with
  | nil => intro s h; exact h
  | cons o os ih =>
    intro s h
    refine ih (fun a p b hm => h64 a p b (by simp [hm])) _ ?_
    intro hp'
    by_cases hp : s.panicked
    · have e : s.step C false valid intro o = s := by simp [Sock.step, hp]
      rw [e]; exact h hp
    · simp only [Sock.step, hp, Bool.false_eq_true, if_false] at hp' ⊢
      cases o with
      | datagram addr pkt b =>
        simp only [Sock.datagram, Sock.on] at hp'
        have := (C76_long_and_short_datagrams_partial hC intro s.sessions.get (s.dialled.get addr) pkt).1 (h64 addr pkt b (by simp))
        split at hp'
        · exact absurd hp' hp
        · split at hp' <;> exact absurd hp' hp
        · exact absurd hp' hp
        · exact absurd hp' hp
        · next e => exact absurd e this
      | reap k =>
        simp only [Sock.reap] at hp' ⊢
        split at hp'
        · exact absurd hp' hp
        · next x hx =>
          split at hp'
          · next peer reason hph =>
            have ht := C77_termination_panics_violated hC x.ctx.intro x.ctx.send x.ctx.dst x.nextNum reason
            simp only [hx, hph, ht]
            exact ⟨k, x, peer, reason, hx, hph⟩
          · exact absurd hp' hp
      | connect addr key cid => exact absurd hp' hp
      | negotiated j peer ctx num => simp only [Sock.negotiated, Sock.on] at hp'; split at hp' <;> exact absurd hp' hp
      | gaveUp j peer => simp only [Sock.gaveUp, Sock.on] at hp'; split at hp' <;> exact absurd hp' hp
      | accept peer => simp only [Sock.accept, Sock.on, Bool.false_eq_true, if_false] at hp'; split at hp' <;> exact absurd hp' hp
      | reject peer => simp only [Sock.reject, Sock.on, Bool.false_eq_true, if_false] at hp'; split at hp' <;> exact absurd hp' hp
      | take j => exact absurd hp' hp
      | sent j => exact absurd hp' hp
      | pass ms => exact absurd hp' hp

/-! ## C255: what is kept of connections -/

/-- C255 (violated): a connection id, once registered, stays registered whatever happens: after a failed handshake, a rejection or the end of
the session. -/
theorem C255_ids_kept_violated (s : Sock) (os : List Op) (c : Nat) (h : s.sessions.get c ≠ none) :
    (s.run C chk valid intro os).sessions.get c ≠ none := by
  induction os generalizing s with
  | nil => exact h
  | cons o os ih =>
    refine ih _ ?_
    rcases step_sessions (C := C) (chk := chk) (valid := valid) (intro := intro) s o with e | ⟨c', e, _⟩
    · rw [e]; exact h
    · rw [e, AMap.get_put]
      split
      · simp
      · exact h

/-- C255 (violated): every token request that is answered, from any address, takes an entry of its own, for ever. -/
theorem C255_token_requests_violated (s : Sock) (hp : s.panicked = false) (addr pkt p : Bytes) (c src n : Nat)
    (h : route C chk intro s.sessions.get (s.dialled.get addr) pkt = .inbound c src n p) (os : List Op) :
    s.sessions.get c = none ∧ ((s.step C chk valid intro (.datagram addr pkt true)).run C chk valid intro os).sessions.get c ≠ none := by
  constructor
  · unfold route at h
    repeat' split at h
    all_goals first | (cases h; done) | skip
    rename_i e _ _ _ _ _ _
    injection h with h1; subst h1; exact e
  · refine C255_ids_kept_violated _ os c ?_
    simp [Sock.step, hp, Sock.datagram, h]

/-- C255 (violated): once a session is gone, its connection id is of no use any more: every packet with that id, also the token request of a new
connection, is thrown away. -/
theorem C255_id_dead_violated (s : Sock) (hp : s.panicked = false) (k : Nat) (x : Sess) (hx : s.all[k]? = some x) (hph : x.phase = .gone)
    (addr pkt : Bytes) (b : Bool) (h24 : 24 ≤ pkt.length) (hc : s.sessions.get (connId C intro pkt) = some k) :
    s.step C chk valid intro (.datagram addr pkt b) = s := by
  rw [Sock.step, if_neg (by simp [hp])]
  simp only [Sock.datagram, C78_own_key C chk intro s.sessions.get _ pkt h24 k hc]
  exact on_same s k x _ hx (by simp only [Sess.push, Sess.listening, hph, Bool.false_eq_true, false_and, if_false])

/-- The operations that may register a connection id. -/
def starts : Op → Bool
  | .connect .. => true
  | .datagram _ _ b => b
  | _ => false

theorem del_length {α β : Type} [DecidableEq α] (m : AMap α β) (k : α) : (m.del k).length ≤ m.length := List.length_filter_le ..

/-- C255: no more than one connection id is registered for each dialled router and each token request that is answered. Missing: that the entry
goes when the connection does; see `C255_ids_kept_violated`. -/
theorem C255_one_entry_each_partial (os : List Op) :
    (({} : Sock).run C chk valid intro os).sessions.length ≤ (os.filter starts).length := by
  suffices h : ∀ s : Sock, (s.run C chk valid intro os).sessions.length ≤ s.sessions.length + (os.filter starts).length by
    simpa using h {}
  induction os with
  | nil => intro s; exact Nat.le_refl _
  | cons o os ih =>
    intro s
    have := ih (s.step C chk valid intro o)
    rw [run_cons]
    rcases step_sessions (C := C) (chk := chk) (valid := valid) (intro := intro) s o with e | ⟨c', e, _, h⟩
    · rw [e] at this
      rw [List.filter_cons]
      split
      · simp only [List.length_cons]; omega
      · exact this
    · have hst : starts o = true := by
        rcases h with ⟨_, _, rfl⟩ | ⟨_, _, rfl, _⟩ <;> rfl
      rw [e] at this
      have hl : (s.sessions.put c' s.all.length).length ≤ s.sessions.length + 1 := by
        have := del_length s.sessions c'
        simp only [AMap.put, List.length_cons]; omega
      simp only [List.filter_cons, hst, if_true, List.length_cons]; omega

/-! ## C256: what the other subsystems are told -/

/-- What a session in this phase has told the others. -/
def toldIn : Phase → List Bool → Prop
  | .pending, t => t = []
  | .unvalidated _, t => t = []
  | .active _, t => t = [true]
  | .ended _ _, t => t = [true, false]
  | .terminating _, t => t = [true, false]
  | .gone, t => t = []
  | .crashed, t => t = [true]

/-- C256: the other subsystems hear of a connection exactly when the transport manager has accepted it, and once; and exactly when its event
loop ends they hear, once, that it is down. In no phase is anything else reported. Only a session whose task panics is never reported down. -/
theorem C256_told (os : List Op) (k : Nat) (y : Sess) (hy : (({} : Sock).run C chk valid intro os).all[k]? = some y) :
    toldIn y.phase y.told := by
  suffices H : ∀ s : Sock, Inv s → (∀ (k : Nat) (x : Sess), s.all[k]? = some x → toldIn x.phase x.told) →
      ∀ (k : Nat) (y : Sess), (s.run C chk valid intro os).all[k]? = some y → toldIn y.phase y.told from
    H {} Inv.empty (by simp) k y hy
  clear hy y k
  induction os with
  | nil => intro s _ h; exact h
  | cons o os ih =>
    intro s hs h
    refine ih _ (hs.step o) ?_
    intro k y hy
    rcases step_moves s o k y hy with ⟨x, hx, m⟩ | ⟨_, rfl⟩
    · have hx0 := h k x hx
      cases m with
      | same => exact hx0
      | push _ _ _ p => unfold Sess.push; split <;> exact hx0
      | up _ _ _ _ e => rw [e] at hx0; exact hx0
      | fail _ _ e => rw [e] at hx0; exact hx0
      | accept q _ e =>
        obtain ⟨x', hx', e'⟩ := hs.wait q k e
        rw [hx] at hx'; cases hx'
        rw [e'] at hx0
        simp only [toldIn] at hx0 ⊢
        rw [hx0]; rfl
      | reject q _ e =>
        obtain ⟨x', hx', e'⟩ := hs.wait q k e
        rw [hx] at hx'; cases hx'
        rw [e'] at hx0
        exact hx0
      | take =>
        unfold Sess.take
        repeat' split
        all_goals simp_all [toldIn]
      | sent => exact hx0
      | reap _ _ _ _ e => rw [e] at hx0; exact hx0
    · rfl

theorem route_long {σ : Type} (hC : C.Lawful) {sessions : Nat → Option σ} {pending : Option Bytes} {pkt p : Bytes} {j : σ}
    (h : route C chk intro sessions pending pkt = .deliver j p) : 24 ≤ p.length := by
  obtain ⟨key, _, _, rfl⟩ := C78_only_the_addressee hC chk intro sessions pending pkt p j h
  have hl : 24 ≤ pkt.length := by
    rcases Nat.lt_or_ge pkt.length 24 with hl | hl
    · rw [(C76_long_and_short_datagrams_partial hC intro sessions pending pkt).2 chk hl] at h; cases h
    · exact hl
  rw [unmasked, xorAt_length _ _ _ (by rw [hC.ks]; omega)]
  exact hl

theorem verdict_release (kc : KeyCtx) (p : Bytes) (h : 24 ≤ p.length) : verdict C false valid kc p ≠ .panics := by
  have hp : ∀ i, parseBlocks false valid i ≠ .panic := C38_release_never_panics_partial valid
  have ho : openData C kc p ≠ .panic := by
    rw [openData, if_neg (by omega)]
    simp only
    split <;> simp
  unfold verdict
  split
  · contradiction
  · simp
  · next payload _ =>
    have := hp payload
    split
    · contradiction
    · simp
    · split <;> simp

/-- C256: in a build without debug assertions no session's task panics over a packet, so every connection that was reported is still up or was
reported down. -/
theorem C256_reported_down (hC : C.Lawful) (os : List Op) (k : Nat) (y : Sess)
    (hy : (({} : Sock).run C false valid intro os).all[k]? = some y) (ht : true ∈ y.told) :
    (∃ peer, y.phase = .active peer) ∨ y.told = [true, false] := by
  have hc : y.phase ≠ .crashed := by
    suffices H : ∀ s : Sock, (∀ (k : Nat) (x : Sess), s.all[k]? = some x → x.phase ≠ .crashed ∧ ∀ p ∈ x.queue, 24 ≤ p.length) →
        ∀ (k : Nat) (y : Sess), (s.run C false valid intro os).all[k]? = some y → y.phase ≠ .crashed ∧ ∀ p ∈ y.queue, 24 ≤ p.length from
      (H {} (by simp) k y hy).1
    clear hy ht y k
    induction os with
    | nil => intro s h; exact h
    | cons o os ih =>
      intro s h
      refine ih _ ?_
      intro k y hy
      rcases step_reached s o k y hy with ⟨x, p, hx, ha, rfl⟩ | ⟨ha, hr, _, hm⟩ | ⟨_, rfl⟩
      · obtain ⟨h1, h2⟩ := h k x hx
        have hp : 24 ≤ p.length := by
          cases o with
          | datagram addr pkt b =>
            simp only [arrival] at ha
            split at ha
            · cases ha
            · split at ha
              · next j q e =>
                split at ha
                · injection ha with ha; subst ha; exact route_long hC e
                · cases ha
              · cases ha
          | _ => cases ha
        rw [push_phase]
        refine ⟨h1, ?_⟩
        unfold Sess.push
        split
        · intro q hq
          simp only [List.mem_append, List.mem_singleton] at hq
          rcases hq with hq | rfl
          · exact h2 q hq
          · exact hp
        · exact h2
      · rcases hm with ⟨x, hx, m⟩ | ⟨_, rfl⟩
        · obtain ⟨h1, h2⟩ := h k x hx
          cases m with
          | same => exact ⟨h1, h2⟩
          | push _ _ _ p =>
            rw [push_phase]
            refine ⟨h1, ?_⟩
            unfold Sess.push at hr ⊢
            split at hr
            · exact absurd (congrArg List.length hr) (by simp [reached, hx])
            · next hn => rw [if_neg hn]; exact h2
          | up => exact ⟨by simp, h2⟩
          | fail => exact ⟨by simp, h2⟩
          | accept => exact ⟨by simp, h2⟩
          | reject => exact ⟨by simp, h2⟩
          | take =>
            unfold Sess.take
            split
            · exact ⟨h1, h2⟩
            · next p ps hq =>
              have hps : ∀ q ∈ ps, 24 ≤ q.length := fun q hq' => h2 q (by rw [hq]; simp [hq'])
              split
              · exact ⟨h1, hps⟩
              · have := verdict_release (C := C) (valid := valid) x.ctx.recv p (h2 p (by rw [hq]; simp))
                split
                · exact ⟨h1, hps⟩
                · exact ⟨h1, hps⟩
                · exact ⟨by simp, hps⟩
                · contradiction
              · exact ⟨h1, h2⟩
          | sent => exact ⟨h1, h2⟩
          | reap => exact ⟨by simp, h2⟩
        · exact ⟨by simp, by simp⟩
      · exact ⟨by simp, by simp⟩
  have h := C256_told os k y hy
  cases hp : y.phase with
  | active peer => exact .inl ⟨peer, rfl⟩
  | crashed => exact absurd hp hc
  | ended => rw [hp] at h; exact .inr h
  | terminating => rw [hp] at h; exact .inr h
  | pending => rw [hp] at h; simp only [toldIn] at h; rw [h] at ht; cases ht
  | unvalidated => rw [hp] at h; simp only [toldIn] at h; rw [h] at ht; cases ht
  | gone => rw [hp] at h; simp only [toldIn] at h; rw [h] at ht; cases ht

/-! ## C257: a peer that has vanished -/

/-- C257 (violated): a connection is only ever ended by the peer: whatever happens and however long it takes, an active session whose packets are
not termination packets stays active; in particular if no packet comes at all. The other subsystems go on believing in it. -/
theorem C257_never_times_out_violated (s : Sock) (hs : Inv s) (os : List Op) (k : Nat) (x : Sess) (peer : Bytes) (hx : s.all[k]? = some x)
    (hph : x.phase = .active peer)
    (hv : ∀ p ∈ x.queue ++ arrivals C chk valid intro k s os, verdict C chk valid x.ctx.recv p = .ignored ∨
      ∃ bs, verdict C chk valid x.ctx.recv p = .contents bs) :
    ∃ y, (s.run C chk valid intro os).all[k]? = some y ∧ y.phase = .active peer ∧ y.told = x.told := by
  induction os generalizing s x with
  | nil => exact ⟨x, hx, hph, rfl⟩
  | cons o os ih =>
    obtain ⟨z, hz⟩ := get_some (step_exists (C := C) (chk := chk) (valid := valid) (intro := intro) s o k (lt_of_get hx))
    rw [arrivals_cons] at hv
    have key : z.phase = .active peer ∧ z.told = x.told ∧ z.ctx = x.ctx ∧ (∀ p ∈ z.queue, p ∈ x.queue ++ arrival C chk intro k s o) := by
      rcases step_reached s o k z hz with ⟨x', p, hx', ha, rfl⟩ | ⟨ha, hr, _, h⟩ | ⟨hn, _⟩
      · rw [hx] at hx'; cases hx'
        rw [ha]
        refine ⟨by rw [push_phase]; exact hph, ?_, ?_, ?_⟩ <;> unfold Sess.push <;> split <;> simp
        intro q hq; exact .inl hq
      · rcases h with ⟨x', hx', m⟩ | ⟨hn, _⟩
        · rw [hx] at hx'; cases hx'
          rw [ha, List.append_nil]
          cases m with
          | same => exact ⟨hph, rfl, rfl, fun _ h => h⟩
          | push _ _ _ p =>
            have : x.push p = x := by
              rcases push_content x p with h | h
              · unfold Sess.push at h ⊢
                split at h
                · exact absurd (congrArg List.length h) (by simp)
                · next hn => rw [if_neg hn]
              · rw [h] at hr
                exact absurd (congrArg List.length hr) (by simp [reached, hx])
            rw [this]; exact ⟨hph, rfl, rfl, fun _ h => h⟩
          | up _ _ _ _ e => rw [hph] at e; cases e
          | fail _ _ e => rw [hph] at e; cases e
          | accept q _ e =>
            obtain ⟨x', hx', e'⟩ := hs.wait q k e
            rw [hx] at hx'; cases hx'
            rw [hph] at e'; cases e'
          | reject q _ e =>
            obtain ⟨x', hx', e'⟩ := hs.wait q k e
            rw [hx] at hx'; cases hx'
            rw [hph] at e'; cases e'
          | take =>
            unfold Sess.take
            split
            · exact ⟨hph, rfl, rfl, fun _ h => h⟩
            · next p ps hq =>
              have hvp := hv p (by simp [hq])
              simp only [hph]
              rcases hvp with e | ⟨bs, e⟩ <;> rw [e] <;> exact ⟨by simp [hph], rfl, rfl, fun q h => by rw [hq]; simp [h]⟩
          | sent => exact ⟨hph, rfl, rfl, fun _ h => h⟩
          | reap _ _ _ _ e => rw [hph] at e; cases e
        · rw [hx] at hn; cases hn
      · rw [hx] at hn; cases hn
    obtain ⟨h1, h2, h3, h4⟩ := key
    obtain ⟨y, hy, hy1, hy2⟩ := ih _ (hs.step o) z hz h1 (by
      rw [h3]
      intro p hp
      apply hv
      simp only [List.mem_append] at hp ⊢
      rcases hp with hp | hp
      · have := h4 p hp
        simp only [List.mem_append] at this
        rcases this with h | h
        · exact .inl h
        · exact .inr (.inl h)
      · exact .inr (.inr hp))
    exact ⟨y, by rw [run_cons]; exact hy, hy1, by rw [hy2, h2]⟩

/-! ## Examples -/

/-- A session of the toy channel's router that has gone through the whole life: dialled, negotiated, accepted, one packet taken. -/
def lifeOps : List Op :=
  [.connect [9] [8] 77, .negotiated 0 [7] { recv := ⟨[3], [4]⟩, send := ⟨[5], [6]⟩, intro := [1], dst := 5 } 1, .accept [7],
    .datagram [9] (dataPacket toyC [1, 2] ⟨[3], [4]⟩ 77 5 (Block.padding [0, 0, 0, 0, 0, 0]).wire) false]

/-- The packet arrives, is taken, and the session goes on; the others have been told once. -/
example : let s := ({} : Sock).run toyC true (fun _ => true) [1, 2] (lifeOps ++ [.take 0])
    s.panicked = false ∧ s.events = [.established [7]] ∧ s.all.map (fun x => (x.phase, x.taken.length, x.queue, x.told)) =
      [(.active [7], 1, [], [true])] := by decide +kernel

/-- Two packets in order, none lost. -/
example : (arrivals toyC true (fun _ => true) [1, 2] 0 {} (lifeOps ++ lifeOps.drop 3)).length = 2 := by decide +kernel

/-- The termination packet ends the session, the others are told, and then the router's task panics. -/
example : let s := ({} : Sock).run toyC false (fun _ => true) [1, 2] (lifeOps ++ [.take 0,
      .datagram [9] (dataPacket toyC [1, 2] ⟨[3], [4]⟩ 77 6 (Block.termination 1 0).wire) false, .take 0])
    s.panicked = false ∧ s.all.map (fun x => (x.phase, x.told)) = [(.ended [7] 0, [true, false])] ∧
      (s.step toyC false (fun _ => true) [1, 2] (.reap 0)).panicked = true := by decide +kernel

/-- A dialled router that could not be reached leaves its entry, and its connection id is dead. -/
example : let s := ({} : Sock).run toyC false (fun _ => true) [1, 2] [.connect [9] [8] 77, .gaveUp 0 none]
    s.sessions = [(77, 0)] ∧ s.dialled = [([9], [8])] ∧
      s.step toyC false (fun _ => true) [1, 2] (.datagram [9] (dataPacket toyC [1, 2] ⟨[3], [4]⟩ 77 6 (Block.termination 1 0).wire) false) = s :=
  by decide +kernel

/-- Two days without a packet: still active. -/
example : let s := ({} : Sock).run toyC false (fun _ => true) [1, 2] (lifeOps ++ [.take 0, .pass 172800000])
    s.all.map (·.phase) = [.active [7]] ∧ s.all.map (·.told) = [[true]] := by decide +kernel

end Emissary.Ssu2.Socket
