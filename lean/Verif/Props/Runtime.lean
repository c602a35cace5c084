import Verif.Model.Runtime
import Verif.Props.Net
import Mathlib.Data.List.Perm.Basic
/-!
# C247 to C249: the runtimes
-/
namespace Emissary.Runtime
open Emissary
open Emissary.Net (Public Heard)
open scoped List

/-! ## C247: who connects -/

/-- The address that a runtime reports. -/
def reported : Kind → Conn → Bytes
  | .tokio, c => c.peer
  | .asyncStd, c => c.here

theorem accept_spec (k : Kind) (q q' : List Incoming) (id : Nat) (a : Bytes) (h : accept k q = (q', .conn id a)) :
    ∃ pre c, q = pre ++ .conn c :: q' ∧ c.usable = true ∧ c.id = id ∧ reported k c = a ∧
      ∀ x ∈ pre, ∃ c', x = .conn c' ∧ c'.usable = false := by
  induction q with
  | nil => cases h
  | cons x q ih =>
    cases x with
    | error => cases h
    | conn c =>
      unfold accept at h
      split at h
      next hu =>
        injection h with h1 h2
        injection h2 with h2 h3
        subst h1
        exact ⟨[], c, rfl, hu, h2, by cases k <;> exact h3, by simp⟩
      next hu =>
        obtain ⟨pre, c', e, h1, h2, h3, h4⟩ := ih h
        refine ⟨.conn c :: pre, c', by rw [e]; rfl, h1, h2, h3, ?_⟩
        intro x hx
        rcases List.mem_cons.1 hx with rfl | hx
        · exact ⟨c, rfl, by simpa using hu⟩
        · exact h4 x hx

/-- **C247**, in part: with tokio, the address that comes with a connection is the one of the peer; connections come in the order
of the backlog, and only unusable ones are left out. Missing: async-std. -/
theorem C247_peer_partial (q q' : List Incoming) (id : Nat) (a : Bytes) (h : accept .tokio q = (q', .conn id a)) :
    ∃ pre c, q = pre ++ .conn c :: q' ∧ c.usable = true ∧ c.id = id ∧ c.peer = a ∧
      ∀ x ∈ pre, ∃ c', x = .conn c' ∧ c'.usable = false :=
  accept_spec .tokio q q' id a h

example : accept .tokio [.conn { id := 1, peer := [9, 9, 9, 9], here := [10, 0, 0, 1] }] = ([], .conn 1 [9, 9, 9, 9]) := by decide

theorem turned_iff (al : Bool) (a : Bytes) : Net.turnedAway al a = true ↔ al = false ∧ a.length = 4 ∧ ¬ Public a := by
  simp only [Net.turnedAway, Bool.and_eq_true, decide_eq_true_eq, Bool.not_eq_true']
  constructor
  · rintro ⟨⟨h1, h2⟩, h3⟩
    refine ⟨h3, h1, fun hp => ?_⟩
    rw [(Util.C190_blocks (unbe a) (by have := unbe_lt a; rw [h1] at this; simpa using this)).2 hp] at h2
    cases h2
  · rintro ⟨h3, h1, hp⟩
    refine ⟨⟨h1, ?_⟩, h3⟩
    cases hg : Util.isGlobal (unbe a) with
    | false => rfl
    | true => exact absurd ((Util.C190_blocks (unbe a) (by have := unbe_lt a; rw [h1] at this; simpa using this)).1 hg) hp

theorem listen_spec (k : Kind) (al : Bool) (n : Nat) : ∀ (q q' : List Incoming) (id : Nat), listen k al n q = (q', .conn id) →
    ∃ pre c, q = pre ++ .conn c :: q' ∧ c.usable = true ∧ c.id = id ∧
      (al = true ∨ (reported k c).length ≠ 4 ∨ Public (reported k c)) ∧
      ∀ x ∈ pre, ∃ c', x = .conn c' ∧
        (c'.usable = false ∨ al = false ∧ (reported k c').length = 4 ∧ ¬ Public (reported k c')) := by
  induction n with
  | zero => intro q q' id h; cases h
  | succ n ih =>
    intro q q' id h
    unfold listen at h
    split at h
    next => cases h
    next => cases h
    next q1 id1 a ha =>
      obtain ⟨pre, c, e, h1, h2, h3, h4⟩ := accept_spec k q q1 id1 a ha
      split at h
      next ht =>
        obtain ⟨pre', c', e', g1, g2, g3, g4⟩ := ih _ _ _ h
        refine ⟨pre ++ .conn c :: pre', c', by rw [e, e']; simp, g1, g2, g3, ?_⟩
        intro x hx
        rcases List.mem_append.1 hx with hx | hx
        · obtain ⟨y, rfl, hy⟩ := h4 x hx; exact ⟨y, rfl, .inl hy⟩
        rcases List.mem_cons.1 hx with rfl | hx
        · exact ⟨c, rfl, .inr (by rw [h3]; exact (turned_iff al a).1 ht)⟩
        · exact g4 x hx
      next ht =>
        injection h with e1 e2
        injection e2 with e2
        subst e1 e2
        refine ⟨pre, c, e, h1, h2, ?_, fun x hx => ?_⟩
        · rw [h3]
          by_cases g1 : al = true
          · exact .inl g1
          by_cases g2 : a.length = 4
          · by_cases g3 : Public a
            · exact .inr (.inr g3)
            · exact absurd ((turned_iff al a).2 ⟨by simpa using g1, g2, g3⟩) ht
          · exact .inr (.inl g2)
        · obtain ⟨y, rfl, hy⟩ := h4 x hx; exact ⟨y, rfl, .inl hy⟩

/-- **C247**, in part: so with tokio the NTCP2 listener takes a connection because of who its peer is, and passes over one for no other
reason; and it takes the next connection from a public address. Missing: async-std. -/
theorem C247_listener_partial (al : Bool) (n : Nat) (q : List Incoming) :
    (∀ q' id, listen .tokio al n q = (q', .conn id) →
      ∃ pre c, q = pre ++ .conn c :: q' ∧ c.usable = true ∧ c.id = id ∧ (al = true ∨ c.peer.length ≠ 4 ∨ Public c.peer) ∧
        ∀ x ∈ pre, ∃ c', x = .conn c' ∧ (c'.usable = false ∨ al = false ∧ c'.peer.length = 4 ∧ ¬ Public c'.peer)) ∧
    (∀ c, c.usable = true → Public c.peer → listen .tokio al (n + 1) (.conn c :: q) = (q, .conn c.id)) := by
  refine ⟨fun q' id h => listen_spec .tokio al n q q' id h, fun c hu hp => ?_⟩
  unfold listen accept
  rw [if_pos hu]
  dsimp only
  rw [if_neg fun h => ((turned_iff al c.peer).1 h).2.2 hp]

example : listen .tokio false 9 [.conn { id := 1, peer := [10, 0, 0, 7], here := [10, 0, 0, 1] },
    .conn { id := 2, peer := [9, 9, 9, 9], here := [10, 0, 0, 1] }] = ([], .conn 2) := by decide +kernel

/-- **C247**, violated: with async-std the address of this end is reported, for every connection. -/
theorem C247_async_violated (q q' : List Incoming) (id : Nat) (a : Bytes) (h : accept .asyncStd q = (q', .conn id a)) :
    ∃ c, .conn c ∈ q ∧ c.id = id ∧ a = c.here := by
  obtain ⟨pre, c, e, -, h1, h2, -⟩ := accept_spec .asyncStd q q' id a h
  exact ⟨c, by rw [e]; simp, h1, h2.symm⟩

/-- **C247**, violated: so a router behind a private address takes no connection at all, from whomever, unless local addresses are
allowed. -/
theorem C247_refused_violated (n : Nat) (q : List Incoming)
    (h : ∀ c, .conn c ∈ q → c.here.length = 4 ∧ ¬ Public c.here) (q' : List Incoming) (id : Nat) :
    listen .asyncStd false n q ≠ (q', .conn id) := by
  intro hl
  obtain ⟨pre, c, e, -, -, h2, -⟩ := listen_spec .asyncStd false n q q' id hl
  have := h c (by rw [e]; simp)
  rcases h2 with h2 | h2 | h2
  · cases h2
  · exact h2 this.1
  · exact this.2 h2

example : ∀ c, Incoming.conn c ∈ [.conn { id := 1, peer := [9, 9, 9, 9], here := [10, 0, 0, 1] }] →
    c.here.length = 4 ∧ ¬ Public c.here := by
  intro c hc
  simp only [List.mem_singleton, Incoming.conn.injEq] at hc
  subst hc
  exact ((turned_iff false [10, 0, 0, 1]).1 (by decide +kernel)).2

/-- **C247**, violated: and a router with a public address takes connections from private addresses. -/
theorem C247_private_violated (al : Bool) (n : Nat) (c : Conn) (q : List Incoming) (hu : c.usable = true) (hp : Public c.here) :
    listen .asyncStd al (n + 1) (.conn c :: q) = (q, .conn c.id) := by
  unfold listen accept
  rw [if_pos hu]
  dsimp only
  rw [if_neg fun h => ((turned_iff al c.here).1 h).2.2 hp]

example : listen .asyncStd false 9 [.conn { id := 1, peer := [10, 0, 0, 7], here := [9, 9, 9, 9] }] = ([], .conn 1) := by
  decide +kernel

/-! ## C248: datagrams -/

/-- No buffer is smaller than a datagram that arrives. -/
def Fit (os : List Op) : Prop := ∀ n d, .recv n ∈ os → .arrive d ∈ os → d.1.length ≤ n

theorem run_snoc (k : Kind) (chk : Bool) (s : Udp) (os : List Op) (o : Op) :
    Udp.run k chk s (os ++ [o]) = ((Udp.run k chk s os).step k chk o).1 := by
  simp [Udp.run]

theorem snoc_ind {α : Type} {P : List α → Prop} (h0 : P []) (h1 : ∀ l x, P l → P (l ++ [x])) (l : List α) : P l := by
  have : ∀ r : List α, P r.reverse := by
    intro r
    induction r with
    | nil => exact h0
    | cons x r ih => rw [List.reverse_cons]; exact h1 _ _ ih
  simpa using this l.reverse

theorem came_run (k : Kind) (chk : Bool) (os : List Op) :
    ∀ d ∈ (Udp.run k chk {} os).came, .arrive d ∈ os := by
  induction os using snoc_ind with
  | h0 => intro d hd; cases hd
  | h1 os o ih =>
    rw [run_snoc]
    intro d hd
    have key : d ∈ (Udp.run k chk {} os).came ∨ o = .arrive d := by
      revert hd
      generalize Udp.run k chk {} os = s
      intro hd
      cases o with
      | arrive d' =>
        have : d ∈ s.came ++ [d'] := by cases k <;> exact hd
        rcases List.mem_append.1 this with h | h
        · exact .inl h
        · rw [List.mem_singleton.1 h]; exact .inr rfl
      | send d' sys =>
        refine .inl ?_
        cases k with
        | tokio => cases sys <;> exact hd
        | asyncStd => simp only [Udp.step, Udp.asyncStd] at hd; split at hd; split at hd; all_goals exact hd
      | recv n =>
        refine .inl ?_
        cases k with
        | tokio => simp only [Udp.step, Udp.tokio] at hd; split at hd <;> exact hd
        | asyncStd =>
          simp only [Udp.step, Udp.asyncStd] at hd
          split at hd
          · exact hd
          · split at hd
            · split at hd <;> exact hd
            · exact hd
      | fail =>
        refine .inl ?_
        cases k with
        | tokio => exact hd
        | asyncStd => simp only [Udp.step, Udp.asyncStd] at hd; split at hd <;> exact hd
      | pass sys =>
        refine .inl ?_
        cases k with
        | tokio => exact hd
        | asyncStd => simp only [Udp.step, Udp.asyncStd] at hd; split at hd; split at hd; all_goals exact hd
      | fetch =>
        refine .inl ?_
        cases k with
        | tokio => exact hd
        | asyncStd =>
          simp only [Udp.step, Udp.asyncStd] at hd
          split at hd
          · split at hd
            · exact hd
            · split at hd <;> exact hd
          · exact hd
    rcases key with key | rfl
    · exact List.mem_append_left _ (ih d key)
    · simp

/-- **C248**, in part: with tokio, the datagrams whose sending is reported are those that the system took, in this order; those that
arrived are given to the router in order, none left out. Missing: async-std. -/
theorem C248_tokio_partial (chk : Bool) (os : List Op) :
    let s := Udp.run .tokio chk {} os
    s.said = s.handed ∧ (Fit os → s.came = s.read ++ s.waiting) := by
  induction os using snoc_ind with
  | h0 => exact ⟨rfl, fun _ => rfl⟩
  | h1 os o ih =>
    dsimp only at ih ⊢
    have hc := came_run .tokio chk os
    rw [run_snoc]
    refine ⟨?_, fun hf => ?_⟩
    · revert ih
      generalize Udp.run .tokio chk {} os = s
      rintro ⟨h, -⟩
      cases o with
      | send d sys => cases sys <;> simp [Udp.step, Udp.tokio, h]
      | recv n => simp only [Udp.step, Udp.tokio]; split <;> exact h
      | arrive d => exact h
      | fail => exact h
      | pass sys => exact h
      | fetch => exact h
    · have h := ih.2 fun n d h1 h2 => hf n d (List.mem_append_left _ h1) (List.mem_append_left _ h2)
      revert h hc
      generalize Udp.run .tokio chk {} os = s
      intro hc h
      cases o with
      | send d sys => cases sys <;> simpa [Udp.step, Udp.tokio] using h
      | recv n =>
        simp only [Udp.step, Udp.tokio]
        split
        next hw => rw [hw] at h; rw [h, hw]
        next d w hw =>
          have := hf n d (by simp) (List.mem_append_left _ (hc d (by rw [h, hw]; simp)))
          dsimp only
          rw [h, hw, List.take_of_length_le this]
          simp
      | arrive d => simp [Udp.step, Udp.tokio, h]
      | fail => exact h
      | pass sys => exact h
      | fetch => exact h

example : Fit [.arrive ([1, 2], [9]), .send ([3], [9]) .taken, .recv 2048] ∧
    (Udp.run .tokio true {} [.arrive ([1, 2], [9]), .send ([3], [9]) .taken, .recv 2048]).read = [([1, 2], [9])] := by
  refine ⟨?_, by decide⟩
  intro n d h1 h2
  simp at h1 h2
  subst h1 h2
  decide

/-- The state of the channels: what is known at every time. -/
theorem async_inv (chk : Bool) (os : List Op) (hf : Fit os) :
    let s := Udp.run .asyncStd chk {} os
    s.handed ++ s.out <+ s.said ∧ s.read ++ s.ins ++ s.waiting <+ s.came ∧ s.panicked = false := by
  induction os using snoc_ind with
  | h0 => exact ⟨List.nil_sublist _, List.nil_sublist _, rfl⟩
  | h1 os o ih =>
    dsimp only at ih ⊢
    have h := ih fun n d h1 h2 => hf n d (List.mem_append_left _ h1) (List.mem_append_left _ h2)
    have hc := came_run .asyncStd chk os
    rw [run_snoc]
    revert h hc
    generalize Udp.run .asyncStd chk {} os = s
    rintro ⟨h1, h2, h3⟩ hc
    cases o with
    | send d sys =>
      simp only [Udp.step, Udp.asyncStd]
      split
      · split
        · exact ⟨by dsimp only; rw [← List.append_assoc]; exact h1.append (List.Sublist.refl _), h2, h3⟩
        · exact ⟨h1.trans (List.sublist_append_left ..), h2, h3⟩
      · exact ⟨h1, h2, h3⟩
    | recv n =>
      simp only [Udp.step, Udp.asyncStd]
      split
      · exact ⟨h1, h2, h3⟩
      next d q hq =>
        have hd : d ∈ s.came := h2.subset (by rw [hq]; simp)
        have := hf n d (by simp) (List.mem_append_left _ (hc d hd))
        rw [if_neg (by omega)]
        refine ⟨h1, ?_, h3⟩
        rw [hq] at h2
        simpa using h2
    | arrive d =>
      simp only [Udp.step, Udp.asyncStd]
      exact ⟨h1, by rw [← List.append_assoc]; exact h2.append (List.Sublist.refl _), h3⟩
    | fail =>
      simp only [Udp.step, Udp.asyncStd]
      split
      · exact ⟨((List.Sublist.refl _).append (List.nil_sublist _)).trans h1, h2, h3⟩
      · exact ⟨h1, h2, h3⟩
    | pass sys =>
      simp only [Udp.step, Udp.asyncStd]
      split
      · split
        · exact ⟨h1, h2, h3⟩
        · exact ⟨h1, h2, h3⟩
        next d q hq => rw [hq] at h1; exact ⟨by simpa using h1, h2, h3⟩
        next d q hq =>
          rw [hq] at h1
          exact ⟨((List.Sublist.refl _).append (List.sublist_cons_self ..)).trans h1, h2, h3⟩
      · exact ⟨h1, h2, h3⟩
    | fetch =>
      simp only [Udp.step, Udp.asyncStd]
      split
      · split
        · exact ⟨h1, h2, h3⟩
        next d w hw =>
          rw [hw] at h2
          split
          · exact ⟨h1, by simpa using h2, h3⟩
          · exact ⟨h1, ((List.Sublist.refl _).append (List.sublist_cons_self ..)).trans h2, h3⟩
      · exact ⟨h1, h2, h3⟩

/-- **C248**, in part: with async-std, what the system is handed is among what was reported, in this order and none twice, and what the
router is given is among what arrived, in the same way. Missing: that nothing is left out. -/
theorem C248_order_partial (chk : Bool) (os : List Op) (hf : Fit os) :
    let s := Udp.run .asyncStd chk {} os
    s.handed <+ s.said ∧ s.read <+ s.came := by
  obtain ⟨h1, h2, -⟩ := async_inv chk os hf
  exact ⟨(List.sublist_append_left ..).trans h1,
    ((List.sublist_append_left ..).trans (List.sublist_append_left ..)).trans h2⟩

/-- **C248**, in part: nothing is left out while there is no error and the channels have room. -/
theorem C248_room_partial (chk : Bool) (os : List Op) (hf : Fit os) (he : ∀ o ∈ os, o ≠ .fail ∧ o ≠ .pass .error)
    (hr : ∀ pre o post, os = pre ++ o :: post → (Udp.run .asyncStd chk {} pre).out.length < room ∧
      (Udp.run .asyncStd chk {} pre).ins.length < room) :
    let s := Udp.run .asyncStd chk {} os
    s.said = s.handed ++ s.out ∧ s.came = s.read ++ s.ins ++ s.waiting ∧ s.alive = true := by
  induction os using snoc_ind with
  | h0 => exact ⟨rfl, rfl, rfl⟩
  | h1 os o ih =>
    dsimp only at ih ⊢
    have h := ih (fun n d h1 h2 => hf n d (List.mem_append_left _ h1) (List.mem_append_left _ h2))
      (fun o ho => he o (List.mem_append_left _ ho)) fun pre o' post e => hr pre o' (post ++ [o]) (by rw [e]; simp)
    have hc := came_run .asyncStd chk os
    have hroom := hr os o [] rfl
    have heo := he o (by simp)
    rw [run_snoc]
    revert h hc hroom
    generalize Udp.run .asyncStd chk {} os = s
    rintro ⟨h1, h2, h3⟩ hc hroom
    cases o with
    | send d sys =>
      simp only [Udp.step, Udp.asyncStd]
      rw [if_pos h3, if_pos hroom.1]
      exact ⟨by dsimp only; rw [h1]; simp, h2, h3⟩
    | recv n =>
      simp only [Udp.step, Udp.asyncStd]
      split
      · exact ⟨h1, h2, h3⟩
      next d q hq =>
        have hd : d ∈ s.came := by rw [h2, hq]; simp
        have := hf n d (by simp) (List.mem_append_left _ (hc d hd))
        rw [if_neg (by omega)]
        exact ⟨h1, by dsimp only; rw [h2, hq]; simp, h3⟩
    | arrive d => exact ⟨h1, by simp [Udp.step, Udp.asyncStd, h2], h3⟩
    | fail => exact absurd rfl heo.1
    | pass sys =>
      simp only [Udp.step, Udp.asyncStd]
      rw [if_pos h3]
      split
      · exact ⟨h1, h2, h3⟩
      · exact ⟨h1, h2, h3⟩
      next d q hq => exact ⟨by dsimp only; rw [h1, hq]; simp, h2, h3⟩
      next => exact absurd rfl heo.2
    | fetch =>
      simp only [Udp.step, Udp.asyncStd]
      rw [if_pos h3]
      split
      · exact ⟨h1, h2, h3⟩
      next d w hw =>
        rw [if_pos hroom.2]
        exact ⟨h1, by dsimp only; rw [h2, hw]; simp, h3⟩

example : (Udp.run .asyncStd true {} [.send ([3], [9]) .taken, .pass .taken, .arrive ([1, 2], [9]), .fetch, .recv 2048]) =
    { handed := [([3], [9])], said := [([3], [9])], read := [([1, 2], [9])], came := [([1, 2], [9])] } := by decide +kernel

theorem handed_said (chk : Bool) (s t : Udp) (os : List Op) (h : t = { s with said := t.said }) :
    (Udp.run .asyncStd chk t os).handed = (Udp.run .asyncStd chk s os).handed := by
  suffices hs : ∀ os : List Op, Udp.run .asyncStd chk t os =
      { Udp.run .asyncStd chk s os with said := (Udp.run .asyncStd chk t os).said } by
    rw [hs os]
  intro os
  induction os using snoc_ind with
  | h0 => exact h
  | h1 os o ih =>
    rw [run_snoc, run_snoc]
    revert ih
    generalize Udp.run .asyncStd chk t os = t'
    generalize Udp.run .asyncStd chk s os = s'
    obtain ⟨t1, t2, t3, t4, t5, t6, t7, t8, t9⟩ := t'
    obtain ⟨s1, s2, s3, s4, s5, s6, s7, s8, s9⟩ := s'
    intro ih
    simp only [Udp.mk.injEq] at ih
    obtain ⟨rfl, rfl, rfl, rfl, rfl, -, rfl, rfl, rfl⟩ := ih
    cases o with
    | send d sys => simp only [Udp.step, Udp.asyncStd]; split; split; all_goals rfl
    | recv n => simp only [Udp.step, Udp.asyncStd]; split; · rfl
                split; split; all_goals rfl
    | arrive d => rfl
    | fail => simp only [Udp.step, Udp.asyncStd]; split <;> rfl
    | pass sys => simp only [Udp.step, Udp.asyncStd]; split; split; all_goals rfl
    | fetch => simp only [Udp.step, Udp.asyncStd]; split; split; · rfl
               split; all_goals rfl

/-- **C248**, violated: with async-std, when the channel is full, sending a datagram is reported as done, and whatever happens after, the
system is handed what it would have been without it. -/
theorem C248_full_violated (chk : Bool) (s : Udp) (d : Datagram) (sys : Sys) (ha : s.alive = true) (hf : room ≤ s.out.length) :
    (s.step .asyncStd chk (.send d sys)).2 = .some d.1.length ∧
    ∀ os, (Udp.run .asyncStd chk (s.step .asyncStd chk (.send d sys)).1 os).handed = (Udp.run .asyncStd chk s os).handed := by
  have e : s.step .asyncStd chk (.send d sys) = ({ s with said := s.said ++ [d] }, .some d.1.length) := by
    simp only [Udp.step, Udp.asyncStd]
    rw [if_pos ha, if_neg (by omega)]
  rw [e]
  exact ⟨rfl, fun os => handed_said chk s _ os rfl⟩

theorem sends_out (chk : Bool) (d : Datagram) (sys : Sys) (n : Nat) : n ≤ room →
    Udp.run .asyncStd chk {} (List.replicate n (.send d sys)) = { out := List.replicate n d, said := List.replicate n d } := by
  induction n with
  | zero => intro _; rfl
  | succ n ih =>
    intro h
    rw [List.replicate_succ', run_snoc, ih (by omega)]
    simp only [Udp.step, Udp.asyncStd, ↓reduceIte, List.length_replicate]
    rw [if_pos (by omega), List.replicate_succ']

/-- 2049 datagrams fill the channel. -/
example (d : Datagram) : (Udp.run .asyncStd true {} (List.replicate room (.send d .taken))).out.length = room := by
  rw [sends_out _ _ _ _ (Nat.le_refl _)]; exact List.length_replicate ..

/-- A socket whose task stopped only changes by what is in it and by what arrives. -/
theorem dead_step (chk : Bool) (u : Udp) (o : Op) (h : u.alive = false) (hr : ∀ n, o ≠ .recv n) (ha : ∀ d, o ≠ .arrive d) :
    (u.step .asyncStd chk o).1 = u := by
  cases o with
  | recv n => exact absurd rfl (hr n)
  | arrive d => exact absurd rfl (ha d)
  | _ => simp [Udp.step, Udp.asyncStd, h]

/-- **C248**, violated: with async-std, one error while receiving ends the socket for good: whatever happens after, nothing is handed to
the system, nothing that arrives is given to the router, and every call for sending fails. -/
theorem C248_dead_violated (chk : Bool) (s : Udp) (os : List Op) :
    let t := (s.step .asyncStd chk .fail).1
    (Udp.run .asyncStd chk t os).handed = s.handed ∧
    (Udp.run .asyncStd chk t os).said = s.said ∧
    (∀ d sys, ((Udp.run .asyncStd chk t os).step .asyncStd chk (.send d sys)).2 = .none) ∧
    (Udp.run .asyncStd chk t os).read.length ≤ s.read.length + s.ins.length := by
  dsimp only
  have key : ∀ os : List Op, let u := Udp.run .asyncStd chk (s.step .asyncStd chk .fail).1 os
      u.alive = false ∧ u.handed = s.handed ∧ u.said = s.said ∧ u.read.length + u.ins.length ≤ s.read.length + s.ins.length := by
    intro os
    induction os using snoc_ind with
    | h0 =>
      simp only [Udp.run, List.foldl_nil, Udp.step, Udp.asyncStd]
      split
      · exact ⟨rfl, rfl, rfl, Nat.le_refl _⟩
      · exact ⟨by simpa using ‹¬ s.alive = true›, rfl, rfl, Nat.le_refl _⟩
    | h1 os o ih =>
      dsimp only at ih ⊢
      rw [run_snoc]
      revert ih
      generalize Udp.run .asyncStd chk (s.step .asyncStd chk .fail).1 os = u
      rintro ⟨h1, h2, h3, h4⟩
      cases o with
      | send d sys => rw [dead_step _ _ _ h1 (by intro n; exact Op.noConfusion) (by intro d; exact Op.noConfusion)]; exact ⟨h1, h2, h3, h4⟩
      | recv n =>
        simp only [Udp.step, Udp.asyncStd]
        split
        · exact ⟨h1, h2, h3, h4⟩
        next d q hq =>
          rw [hq] at h4
          simp only [List.length_cons] at h4
          split
          · split
            · exact ⟨h1, h2, h3, by dsimp only; omega⟩
            · exact ⟨h1, h2, h3, by simp only [List.length_append, List.length_singleton]; omega⟩
          · exact ⟨h1, h2, h3, by simp only [List.length_append, List.length_singleton]; omega⟩
      | arrive d => exact ⟨h1, h2, h3, h4⟩
      | fail => rw [dead_step _ _ _ h1 (by intro n; exact Op.noConfusion) (by intro d; exact Op.noConfusion)]; exact ⟨h1, h2, h3, h4⟩
      | pass sys => rw [dead_step _ _ _ h1 (by intro n; exact Op.noConfusion) (by intro d; exact Op.noConfusion)]; exact ⟨h1, h2, h3, h4⟩
      | fetch => rw [dead_step _ _ _ h1 (by intro n; exact Op.noConfusion) (by intro d; exact Op.noConfusion)]; exact ⟨h1, h2, h3, h4⟩
  obtain ⟨h1, h2, h3, h4⟩ := key os
  refine ⟨h2, h3, fun d sys => ?_, by omega⟩
  generalize Udp.run .asyncStd chk (s.step .asyncStd chk .fail).1 os = u at *
  simp only [Udp.step, Udp.asyncStd, h1, Bool.false_eq_true, ↓reduceIte]

/-- **C248**, violated: with async-std and debug assertions, a datagram that is longer than the buffer panics; SSU2 has 2048 bytes of
buffer. -/
theorem C248_long_violated (s : Udp) (d : Datagram) (q : List Datagram) (n : Nat) (h : s.ins = d :: q) (hn : n < d.1.length) :
    ((s.step .asyncStd true (.recv n)).1).panicked = true := by
  simp only [Udp.step, Udp.asyncStd, h]
  rw [if_pos hn]
  rfl

example (d : Datagram) (h : 2048 < d.1.length) :
    (Udp.run .asyncStd true {} [.arrive d, .fetch, .recv 2048]).panicked = true := by
  simp [Udp.run, Udp.step, Udp.asyncStd, room, h]

/-! ## C249: sets of tasks -/

/-- A history: only tasks that were pushed and did not end do end. -/
def Proper {α : Type} : List Nat → List (Event α) → Prop
  | _, [] => True
  | r, .push id :: es => id ∉ r ∧ Proper (r ++ [id]) es
  | r, .finish id _ :: es => id ∈ r ∧ Proper (r.filter (· ≠ id)) es
  | r, .panic id :: es => id ∈ r ∧ Proper (r.filter (· ≠ id)) es
  | r, .poll _ :: es => Proper r es

/-- The result that an event brings. -/
def result {α : Type} : Event α → Option (Nat × α)
  | .finish id v => some (id, v)
  | _ => none

/-- The result that a step gives. -/
def given {α : Type} : Yield α → Option (Nat × α)
  | .value id v => some (id, v)
  | _ => none

def isPanic {α : Type} : Event α → Bool
  | .panic _ => true
  | _ => false

def isEnd {α : Type} : Yield α → Bool
  | .ended => true
  | _ => false

def isPoll {α : Type} : Event α → Bool
  | .poll _ => true
  | _ => false

/-- A finished task, if it has a result. -/
def kept {α : Type} (d : Nat × Option α) : Option (Nat × α) := d.2.map fun v => (d.1, v)

theorem ends_of {α : Type} (s : Tasks α) (id : Nat) (v : Option α) (h : id ∈ s.running) :
    s.ends id v = { s with
      running := s.running.filter (· ≠ id), done := s.done ++ [(id, v)], inner := false, woken := s.woken || s.inner } := by
  unfold Tasks.ends; rw [if_pos h]

theorem erase_perm {β : Type} (d : β) (l : List β) (i : Nat) :
    ((d :: l).getD i d) :: ((d :: l).eraseIdx (if i < (d :: l).length then i else 0)) ~ d :: l := by
  split
  next h =>
    rw [List.getD_eq_getElem?_getD, List.getElem?_eq_getElem h, Option.getD_some]
    exact List.getElem_cons_eraseIdx_perm h
  next h =>
    rw [List.getD_eq_getElem?_getD, List.getElem?_eq_none (by omega), Option.getD_none]
    exact List.Perm.refl _

/-- One poll: what was finished is what is given and what is left. -/
theorem poll_perm {α : Type} (k : Kind) (s : Tasks α) (i : Nat) :
    s.done.filterMap kept ~ [(s.step k (.poll i)).2].filterMap given ++ (s.step k (.poll i)).1.done.filterMap kept ∧
    (s.done.filter fun d => d.2.isNone).length =
      ([(s.step k (.poll i)).2].filter isEnd).length + ((s.step k (.poll i)).1.done.filter fun d => d.2.isNone).length := by
  simp only [Tasks.step]
  cases hd : s.done with
  | nil => simp [given, isEnd, hd]
  | cons d rest =>
    have hp := erase_perm d rest i
    dsimp only
    generalize (d :: rest).getD i d = x at *
    generalize (d :: rest).eraseIdx _ = l at *
    obtain ⟨id, v⟩ := x
    cases v with
    | none =>
      have h1 : l.filterMap kept ~ (d :: rest).filterMap kept := hp.filterMap kept
      have h2 := (hp.filter fun d => d.2.isNone).length_eq
      rw [List.filter_cons_of_pos rfl, List.length_cons] at h2
      refine ⟨h1.symm, ?_⟩
      show _ = 1 + _
      dsimp only
      omega
    | some v =>
      have h1 : (id, v) :: l.filterMap kept ~ (d :: rest).filterMap kept := hp.filterMap kept
      have h2 := (hp.filter fun d => d.2.isNone).length_eq
      rw [List.filter_cons_of_neg (by simp)] at h2
      refine ⟨h1.symm, ?_⟩
      show _ = 0 + _
      dsimp only
      omega

theorem run_perm {α : Type} (k : Kind) (es : List (Event α)) : ∀ s : Tasks α, Proper s.running es →
    s.done.filterMap kept ++ es.filterMap result ~
      (s.run k es).2.filterMap given ++ (s.run k es).1.done.filterMap kept ∧
    (s.done.filter fun d => d.2.isNone).length + (es.filter isPanic).length =
      ((s.run k es).2.filter isEnd).length + ((s.run k es).1.done.filter fun d => d.2.isNone).length := by
  induction es with
  | nil => intro s _; simp [Tasks.run]
  | cons e es ih =>
    intro s hp
    rw [Tasks.run]
    dsimp only
    cases e with
    | push id =>
      have := ih (s.step k (.push id)).1 hp.2
      exact this
    | finish id v =>
      have e1 : (s.step k (.finish id v)) = (s.ends id (some v), .quiet) := rfl
      have := ih (s.step k (.finish id v)).1 (by rw [e1, ends_of _ _ _ hp.1]; exact hp.2)
      rw [e1] at this ⊢
      have e2 := ends_of s id (some v) hp.1
      rw [e2] at this ⊢
      rw [List.filterMap_append, List.append_assoc, List.filter_append, List.length_append] at this
      exact this
    | panic id =>
      have e1 : (s.step k (.panic id)) = (s.ends id none, .quiet) := rfl
      have := ih (s.step k (.panic id)).1 (by rw [e1, ends_of _ _ _ hp.1]; exact hp.2)
      rw [e1] at this ⊢
      have e2 := ends_of s id none hp.1
      rw [e2] at this ⊢
      rw [List.filterMap_append, List.append_assoc, List.filter_append, List.length_append] at this
      refine ⟨this.1, ?_⟩
      have h2 := this.2
      rw [Nat.add_assoc] at h2
      refine Eq.trans ?_ h2
      show _ + (es.filter isPanic).length.succ = _ + (1 + _)
      omega
    | poll i =>
      have hr : (s.step k (.poll i)).1.running = s.running := by
        simp only [Tasks.step]
        split
        · rfl
        · split <;> rfl
      have h1 := ih (s.step k (.poll i)).1 (by rw [hr]; exact hp)
      have h2 := poll_perm k s i
      generalize s.step k (.poll i) = r at *
      refine ⟨?_, ?_⟩
      · have a := h2.1.append_right (es.filterMap result)
        have : List.filterMap result (Event.poll i :: es) = es.filterMap result := rfl
        rw [this, show (r.2 :: (r.1.run k es).2) = [r.2] ++ (r.1.run k es).2 from rfl, List.filterMap_append]
        refine a.trans ?_
        rw [List.append_assoc, List.append_assoc]
        exact h1.1.append_left _
      · have : (Event.poll i :: es).filter isPanic = es.filter isPanic := rfl
        rw [this, show (r.2 :: (r.1.run k es).2) = [r.2] ++ (r.1.run k es).2 from rfl, List.filter_append, List.length_append]
        have := h1.2
        have := h2.2
        omega

theorem run_append {α : Type} (k : Kind) (es fs : List (Event α)) : ∀ s : Tasks α,
    s.run k (es ++ fs) = (((s.run k es).1.run k fs).1, (s.run k es).2 ++ ((s.run k es).1.run k fs).2) := by
  induction es with
  | nil => intro s; simp [Tasks.run]
  | cons e es ih => intro s; simp only [List.cons_append, Tasks.run]; rw [ih]

theorem pending_done {α : Type} (k : Kind) (s : Tasks α) (i : Nat) (h : (s.step k (.poll i)).2 = .pending) :
    s.done = [] ∧ (s.step k (.poll i)).1 = { s with waker := true, inner := !s.running.isEmpty, woken := false } := by
  simp only [Tasks.step] at h ⊢
  cases hd : s.done with
  | nil => exact ⟨rfl, by simp⟩
  | cons d rest =>
    rw [hd] at h
    dsimp only at h
    split at h <;> cases h

/-- **C249**, in part: the owner of a set is given no result that no task had and none twice; and when it is told to wait, it was given
every result. Missing: tasks that panic. -/
theorem C249_results_partial {α : Type} (k : Kind) (es : List (Event α)) (i : Nat) (hp : Proper [] es) :
    (∃ left, es.filterMap result ~ ((Tasks.run k {} es).2.filterMap given) ++ left) ∧
    (((Tasks.run k {} es).1.step k (.poll i)).2 = .pending →
      es.filterMap result ~ (Tasks.run k {} es).2.filterMap given) := by
  have h := (run_perm k es {} hp).1
  refine ⟨⟨_, by simpa using h⟩, fun hl => ?_⟩
  rw [(pending_done k _ i hl).1] at h
  simpa using h

/-- **C249**, in part: without panics, the set never says that it ended. -/
theorem C249_open_partial {α : Type} (k : Kind) (es : List (Event α)) (hp : Proper [] es) (hn : ∀ id, .panic id ∉ es) :
    .ended ∉ (Tasks.run k {} es).2 := by
  have h := (run_perm k es {} hp).2
  have h0 : es.filter isPanic = [] := by
    rw [List.filter_eq_nil_iff]
    intro e he
    cases e <;> simp [isPanic]
    exact absurd he (hn _)
  rw [h0] at h
  simp only [List.filter_nil, List.length_nil, Nat.add_zero] at h
  intro hm
  have : 0 < ((Tasks.run k {} es).2.filter isEnd).length :=
    List.length_pos_of_mem (List.mem_filter.2 ⟨hm, rfl⟩)
  omega

/-- **C249**, in part: an owner that was told to wait is woken by the first thing that happens: a task that is pushed or one that ends. -/
theorem C249_woken_partial {α : Type} (k : Kind) (es fs : List (Event α)) (i : Nat) (hp : Proper [] (es ++ .poll i :: fs))
    (hl : ((Tasks.run k {} es).1.step k (.poll i)).2 = .pending) (hf : fs ≠ []) (hn : ∀ e ∈ fs, isPoll e = false) :
    (Tasks.run k {} (es ++ .poll i :: fs)).1.woken = true := by
  have hrun : ∀ (es : List (Event α)) (s : Tasks α) (gs : List (Event α)), Proper s.running (es ++ gs) →
      Proper (s.run k es).1.running gs := by
    intro es
    induction es with
    | nil => intro s gs h; exact h
    | cons e es ih =>
      intro s gs h
      rw [Tasks.run]
      refine ih _ _ ?_
      cases e with
      | push id => exact h.2
      | finish id v =>
        have e1 : (s.step k (.finish id v)).1 = s.ends id (some v) := rfl
        rw [e1, ends_of _ _ _ h.1]; exact h.2
      | panic id =>
        have e1 : (s.step k (.panic id)).1 = s.ends id none := rfl
        rw [e1, ends_of _ _ _ h.1]; exact h.2
      | poll i =>
        have hr : (s.step k (.poll i)).1.running = s.running := by
          simp only [Tasks.step]
          split
          · rfl
          · split <;> rfl
        rw [hr]; exact h
  have h1 := hrun es {} _ hp
  rw [run_append]
  generalize (Tasks.run k {} es).1 = s at *
  rw [Tasks.run]
  dsimp only
  obtain ⟨hd, hs⟩ := pending_done k s i hl
  rw [hs]
  have stay : ∀ (fs : List (Event α)) (s : Tasks α), (∀ e ∈ fs, isPoll e = false) → s.woken = true → (s.run k fs).1.woken = true := by
    intro fs
    induction fs with
    | nil => intro s _ h; exact h
    | cons e fs ih =>
      intro s hn h
      rw [Tasks.run]
      refine ih _ (fun e he => hn e (List.mem_cons_of_mem _ he)) ?_
      cases e with
      | push id => simp [Tasks.step, h]
      | finish id v => simp only [Tasks.step, Tasks.ends]; split <;> simp [h]
      | panic id => simp only [Tasks.step, Tasks.ends]; split <;> simp [h]
      | poll i => exact absurd (hn _ (List.mem_cons_self ..)) (by simp [isPoll])
  cases fs with
  | nil => exact absurd rfl hf
  | cons e fs =>
    rw [Tasks.run]
    refine stay fs _ (fun e he => hn e (List.mem_cons_of_mem _ he)) ?_
    cases e with
    | push id => simp [Tasks.step]
    | finish id v =>
      have hm : id ∈ s.running := h1.1
      have : s.running.isEmpty = false := by cases hs : s.running with | nil => rw [hs] at hm; cases hm | cons => rfl
      simp only [Tasks.step, Tasks.ends]
      rw [if_pos hm]
      simp [this]
    | panic id =>
      have hm : id ∈ s.running := h1.1
      have : s.running.isEmpty = false := by cases hs : s.running with | nil => rw [hs] at hm; cases hm | cons => rfl
      simp only [Tasks.step, Tasks.ends]
      rw [if_pos hm]
      simp [this]
    | poll i => exact absurd (hn _ (List.mem_cons_self ..)) (by simp [isPoll])

/-- A history with everything. -/
def story : List (Event Nat) := [.poll 0, .push 1, .push 2, .finish 2 20, .poll 0, .poll 0, .finish 1 10]

example : Proper [] story := by simp [story, Proper]

example : (Tasks.run .tokio {} story).2.filterMap given = [(2, 20)] ∧
    (Tasks.run .tokio {} story).1.woken = true ∧ ((Tasks.run .tokio {} (story ++ [.poll 0])).1.step .tokio (.poll 0)).2 = .pending := by
  decide +kernel

/-- **C249**, violated: with tokio, a set of which a task panicked says that it ended, once for each such task if it is polled to the
end, whatever other tasks are in it. -/
theorem C249_ended_violated {α : Type} (es : List (Event α)) (i : Nat) (hp : Proper [] es)
    (hl : ((Tasks.run .tokio {} es).1.step .tokio (.poll i)).2 = .pending) :
    ((Tasks.run .tokio {} es).2.filter isEnd).length = (es.filter isPanic).length := by
  have h := (run_perm .tokio es {} hp).2
  rw [(pending_done .tokio _ i hl).1] at h
  simpa using h.symm

/-- The other task is running when the end is said, and its result comes after. -/
example : (Tasks.run .tokio {} [.push 1, .push 2, .panic 1, .poll 0, .finish 2 (7 : Nat), .poll 0]).2 =
    [.quiet, .quiet, .quiet, .ended, .quiet, .value 2 7] := by decide +kernel

end Emissary.Runtime
