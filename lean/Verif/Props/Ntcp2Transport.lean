import Verif.Model.Ntcp2Transport
import Mathlib.Data.List.Perm.Basic
/-!
# The NTCP2 transport: every handshake is heard of (C262, C263)
-/
namespace Emissary.Ntcp2.Transport
open Emissary Emissary.Runtime
open scoped List

/-! ## Specification -/

/-- The event concerns the transport: a connection arrives, or a task that runs ends. -/
def Real (t : Trans) : Around → Prop
  | .arrive _ => True
  | .shook id _ => id ∈ t.shaking.running
  | .left id _ => id ∈ t.opened.running
  | .shakePanics id => id ∈ t.shaking.running
  | .sessionPanics id => id ∈ t.opened.running

/-- Something waits for the transport to be polled. -/
def Waits (t : Trans) : Prop := t.backlog ≠ [] ∨ t.opened.done ≠ [] ∨ t.shaking.done ≠ []

/-- What the manager is to hear of a handshake. -/
def say : Outcome → Option Out
  | .session inb r => some (.established inb r)
  | .failed (some r) => some (.failure r)
  | .failed none => none

/-- The handshakes that end in a history, and the sessions. -/
def shook : Cmd → Option Outcome
  | .around (.shook _ o) => some o
  | _ => none
def left : Cmd → Option RouterId
  | .around (.left _ r) => some r
  | _ => none

/-- Only tasks that run end, and none panics. -/
def Sane (chk : Bool) (k : Kind) : Trans → List Cmd → Prop
  | _, [] => True
  | t, c :: cs => (match c with
      | .around a => Real t a ∧ (∀ id, a ≠ .shakePanics id ∧ a ≠ .sessionPanics id)
      | _ => True) ∧ Sane chk k (t.step chk k c).1 cs

def ofShake (o : Out) : Bool := match o with | .established .. => true | .failure _ => true | _ => false
def ofClose : Out → Option RouterId
  | .closed r => some r
  | _ => none

/-! ## C262: waking -/

theorem poll_none {α : Type} (k : Kind) (s : Tasks α) (i : Nat) (h : s.done = []) :
    s.step k (.poll i) = ({ s with waker := true, inner := !s.running.isEmpty, woken := false }, .pending) := by
  simp [Tasks.step, h]

theorem poll_some {α : Type} (k : Kind) (s : Tasks α) (i : Nat) (h : s.done ≠ []) : ∃ y, y ≠ .pending ∧ y ≠ .quiet ∧ (s.step k (.poll i)).2 = y := by
  cases hd : s.done with
  | nil => exact absurd hd h
  | cons d rest =>
    simp only [Tasks.step, hd]
    cases ((d :: rest).getD i d).2 with
    | none => exact ⟨.ended, by simp, by simp, rfl⟩
    | some v => exact ⟨.value _ v, by simp, by simp, rfl⟩

/-- A poll in which no session has closed. -/
theorem poll_eq (k : Kind) (t : Trans) (i j : Nat) (h : t.opened.done = []) : t.poll k i j =
    (({ t with
        rung := false
        opened := { t.opened with waker := true, inner := !t.opened.running.isEmpty, woken := false }
        shaking := { t.shaking with woken := false } } : Trans).pollListener k).pollShaking k j := by
  simp [Trans.poll, Tasks.step, h]

theorem ends_woken {α : Type} (s : Tasks α) (id : Nat) (v : Option α) (hm : id ∈ s.running) (hi : s.inner = true) : (s.ends id v).woken = true := by
  simp [Tasks.ends, hm, hi]

theorem not_empty {id : Nat} {l : List Nat} (h : id ∈ l) : (!l.isEmpty) = true := by cases l <;> simp_all

/-- **C262**, in part: if the transport says that there is nothing to do, took no connection from the listener and heard of no failed inbound
handshake in that call, then nothing waits for it, and whatever concerns it and happens next wakes it. Missing: the other calls. -/
theorem C262_woken_partial (k : Kind) (t : Trans) (i j : Nat) (hb : t.backlog = [])
    (hs : ∀ id, (t.shaking.step k (.poll j)).2 ≠ .value id (.failed none)) (hi : (t.poll k i j).2 = .idle) :
    ¬ Waits (t.poll k i j).1 ∧ ∀ a, Real (t.poll k i j).1 a → ((t.poll k i j).1.around k a).woken = true := by
  have hod : t.opened.done = [] := by
    by_cases hne : t.opened.done = []
    · exact hne
    · exfalso
      obtain ⟨y, h1, h2, h3⟩ := poll_some k ({ t.opened with woken := false } : Tasks RouterId) i hne
      unfold Trans.poll at hi
      generalize hg : Tasks.step k ({ t.opened with woken := false } : Tasks RouterId) (.poll i) = g at hi h3
      obtain ⟨o, y'⟩ := g
      simp only at h3
      subst h3
      simp only [hg] at hi
      cases y' <;> simp_all
  have hsd : t.shaking.done = [] := by
    by_cases hne : t.shaking.done = []
    · exact hne
    · exfalso
      obtain ⟨y, h1, h2, h3⟩ := poll_some k t.shaking j hne
      rw [h3] at hs
      have h4 : (Tasks.step k ({ t.shaking with woken := false } : Tasks Outcome) (.poll j)).2 = y := by
        rw [← h3]
        cases hd : t.shaking.done with
        | nil => exact absurd hd hne
        | cons d rest => simp only [Tasks.step, hd]
      rw [poll_eq k t i j hod] at hi
      simp only [Trans.pollListener, hb, Trans.pollShaking] at hi
      have he : t.shaking.done.isEmpty = false := by cases hd : t.shaking.done <;> simp_all
      simp only [he, Bool.and_false, Bool.false_eq_true, if_false] at hi
      generalize hg : Tasks.step k ({ t.shaking with woken := false } : Tasks Outcome) (.poll j) = g at hi h4
      obtain ⟨o, y'⟩ := g
      simp only at h4
      subst h4
      cases y' with
      | quiet => exact h2 rfl
      | pending => exact h1 rfl
      | ended => simp at hi
      | value id o =>
        cases o with
        | session inb r => simp at hi
        | failed r =>
          cases r with
          | none => exact hs id rfl
          | some r => simp at hi
  rw [poll_eq k t i j hod]
  simp only [Trans.pollListener, hb, Trans.pollShaking, hsd, List.isEmpty_nil, Bool.and_true]
  by_cases hr : t.shaking.running.isEmpty = true
  · simp only [hr, if_true]
    refine ⟨by simp [Waits, hb, hod, hsd], fun a ha => ?_⟩
    have hre : t.shaking.running = [] := by simpa using hr
    cases a with
    | arrive c => simp [Trans.around, Trans.woken]
    | shook id o => simp [Real, hre] at ha
    | left id r =>
      simp only [Real] at ha
      simp only [Trans.around, Trans.woken, Tasks.step, Bool.or_eq_true]
      exact .inl (.inr (ends_woken _ _ _ ha (not_empty ha)))
    | shakePanics id => simp [Real, hre] at ha
    | sessionPanics id =>
      simp only [Real] at ha
      simp only [Trans.around, Trans.woken, Tasks.step, Bool.or_eq_true]
      exact .inl (.inr (ends_woken _ _ _ ha (not_empty ha)))
  · simp only [hr, Bool.false_eq_true, if_false]
    rw [poll_none k _ j rfl]
    simp only
    refine ⟨by simp [Waits, hb, hod, hsd], fun a ha => ?_⟩
    cases a with
    | arrive c => simp [Trans.around, Trans.woken]
    | shook id o =>
      simp only [Real] at ha
      simp only [Trans.around, Trans.woken, Tasks.step, Bool.or_eq_true]
      exact .inr (ends_woken _ _ _ ha (not_empty ha))
    | left id r =>
      simp only [Real] at ha
      simp only [Trans.around, Trans.woken, Tasks.step, Bool.or_eq_true]
      exact .inl (.inr (ends_woken _ _ _ ha (not_empty ha)))
    | shakePanics id =>
      simp only [Real] at ha
      simp only [Trans.around, Trans.woken, Tasks.step, Bool.or_eq_true]
      exact .inr (ends_woken _ _ _ ha (not_empty ha))
    | sessionPanics id =>
      simp only [Real] at ha
      simp only [Trans.around, Trans.woken, Tasks.step, Bool.or_eq_true]
      exact .inl (.inr (ends_woken _ _ _ ha (not_empty ha)))

/-- **C262**, violated: when an inbound handshake has failed, the transport says that there is nothing to do although other handshakes may have
ended, with sessions or failures that the manager waits for. It is not woken for those, nor for further handshakes that end. -/
theorem C262_failed_handshake_violated (k : Kind) (t : Trans) (i : Nat) (id : Nat) (rest : List (Nat × Option Outcome))
    (ho : t.opened.done = []) (hb : t.backlog = []) (hd : t.shaking.done = (id, some (.failed none)) :: rest)
    (hi : t.shaking.inner = false) (ends : List (Nat × Outcome)) :
    (t.poll k i 0).2 = .idle ∧
    (let u := ends.foldl (fun u e => u.around k (.shook e.1 e.2)) (t.poll k i 0).1
     u.woken = false ∧ rest <+: u.shaking.done) := by
  have hp : t.poll k i 0 =
      ({ t with
          rung := false, listening := true
          opened := { t.opened with waker := true, inner := !t.opened.running.isEmpty, woken := false }
          shaking := { t.shaking with done := rest, woken := false } }, .idle) := by
    rw [poll_eq k t i 0 ho]
    simp only [Trans.pollListener, hb, Trans.pollShaking, hd, List.isEmpty_cons, Bool.and_false, Bool.false_eq_true, if_false,
      Tasks.step, List.getD_cons_zero, List.length_cons, Nat.zero_lt_succ, if_true, List.eraseIdx_cons_zero]
  rw [hp]
  refine ⟨rfl, ?_⟩
  have key : ∀ (es : List (Nat × Outcome)) (u : Trans), u.woken = false → u.shaking.inner = false → rest <+: u.shaking.done →
      (es.foldl (fun u e => u.around k (.shook e.1 e.2)) u).woken = false ∧
        rest <+: (es.foldl (fun u e => u.around k (.shook e.1 e.2)) u).shaking.done := by
    intro es
    induction es with
    | nil => intro u h1 _ h3; exact ⟨h1, h3⟩
    | cons e es ih =>
      intro u h1 h2 h3
      simp only [List.foldl_cons]
      refine ih _ ?_ ?_ ?_
      · simp only [Trans.around, Trans.woken, Tasks.step, Tasks.ends] at h1 ⊢
        split
        · simpa [h2] using h1
        · exact h1
      · simp only [Trans.around, Tasks.step, Tasks.ends]
        split
        · rfl
        · exact h2
      · simp only [Trans.around, Tasks.step, Tasks.ends]
        split
        · exact h3.trans (List.prefix_append _ _)
        · exact h3
  exact key ends _ (by simp [Trans.woken]) hi (List.prefix_refl _)

/-- Two inbound connections; the handshakes end before the transport is polled, the first one with an error. -/
def twoInbound : Trans :=
  let t : Trans := ({} : Trans).around .tokio (.arrive 1)
  let t := (t.poll .tokio 0 0).1
  let t := t.around .tokio (.arrive 2)
  let t := (t.poll .tokio 0 0).1
  (((t.poll .tokio 0 0).1.around .tokio (.shook 0 (.failed none))).around .tokio (.shook 1 (.session true [7])))

example : twoInbound.opened.done = [] ∧ twoInbound.backlog = [] ∧
    twoInbound.shaking.done = [(0, some (.failed none)), (1, some (.session true [7]))] ∧ twoInbound.shaking.inner = false ∧
    twoInbound.woken = true := by decide +kernel

/-- **C262**, violated: when the transport takes its first connection from the listener, the others that wait there stay, and it is not woken for
them, nor for any number of connections that arrive. -/
theorem C262_backlog_violated (k : Kind) (t : Trans) (i j : Nat) (c : Nat) (q : List Nat) (ho : t.opened.done = [])
    (hs : t.shaking.done = []) (hw : t.shaking.waker = false) (hl : t.listening = false) (hb : t.backlog = c :: q) (cs : List Nat) :
    (t.poll k i j).2 = .idle ∧
    (let u := cs.foldl (fun u c => u.around k (.arrive c)) (t.poll k i j).1
     u.woken = false ∧ u.backlog = q ++ cs) := by
  have hp : (t.poll k i j).2 = .idle ∧ (t.poll k i j).1.backlog = q ∧ (t.poll k i j).1.listening = false ∧ (t.poll k i j).1.woken = false := by
    rw [poll_eq k t i j ho]
    have hne : (t.shaking.running ++ [t.next]).isEmpty = false := by simp
    simp only [Trans.pollListener, hb, Trans.pollShaking, hw, Tasks.step, hs, hne, Bool.false_and, Bool.false_eq_true, if_false, Bool.or_false, Trans.woken, hl]
    exact ⟨trivial, trivial, trivial, trivial⟩
  obtain ⟨h1, h2, h3, h4⟩ := hp
  refine ⟨h1, ?_⟩
  have key : ∀ (cs : List Nat) (u : Trans), u.woken = false → u.listening = false →
      (cs.foldl (fun u c => u.around k (.arrive c)) u).woken = false ∧
        (cs.foldl (fun u c => u.around k (.arrive c)) u).backlog = u.backlog ++ cs := by
    intro cs
    induction cs with
    | nil => intro u g1 _; exact ⟨g1, by simp⟩
    | cons c cs ih =>
      intro u g1 g2
      simp only [List.foldl_cons]
      have := ih (u.around k (.arrive c)) (by simpa [Trans.around, Trans.woken, g2] using g1) rfl
      refine ⟨this.1, by rw [this.2]; simp [Trans.around]⟩
  have := key cs _ h4 h3
  exact ⟨this.1, by rw [this.2, h2]⟩

/-- Two connections arrive at a new router. -/
example : let t := (({} : Trans).around .tokio (.arrive 1)).around .tokio (.arrive 2)
    t.opened.done = [] ∧ t.shaking.done = [] ∧ t.shaking.waker = false ∧ t.listening = false ∧ t.backlog = [1, 2] := by decide +kernel

/-- **C262**, in part: when the transport takes a connection from the listener while the handshakes hold a waker, it is polled again, so the others that wait there
get their turn. -/
theorem C262_backlog_partial (k : Kind) (t : Trans) (i j : Nat) (ho : t.opened.done = []) (hw : t.shaking.waker = true) (hb : t.backlog ≠ []) :
    (t.poll k i j).1.woken = true := by
  rw [poll_eq k t i j ho]
  cases hq : t.backlog with
  | nil => exact absurd hq hb
  | cons c q =>
    have h : ∀ u : Trans, u.rung = true → (u.pollShaking k j).1.woken = true := by
      intro u hu
      unfold Trans.pollShaking
      split
      · simp [Trans.woken, hu]
      · dsimp only
        split <;> simp [Trans.woken, Trans.hold, hu]
    refine h _ ?_
    simp [Trans.pollListener, hq, hw]

example := C262_backlog_partial .tokio (((({} : Trans).connect .tokio).poll .tokio 0 0).1.around .tokio (.arrive 4)) 0 0 (by decide +kernel) (by decide +kernel) (by decide +kernel)

/-! ## C263: what the manager hears -/

/-- The sessions that the manager accepted in a history with its events. -/
def accepted : Cmd × Out → Option RouterId
  | (.poll _ _ true, .established _ r) => some r
  | _ => none

/-- What the handshakes that are over, and of which the manager has not heard, are to say. -/
def unheard (t : Trans) : List Out := t.shaking.done.filterMap fun d => d.2.bind say
def unclosed (t : Trans) : List RouterId := t.opened.done.filterMap (·.2)

/-- How often a number is in use. -/
def occ (t : Trans) (id : Nat) : Nat := t.shaking.running.count id + (t.shaking.done.map (·.1)).count id + t.opened.running.count id

structure Inv (t : Trans) : Prop where
  pending : t.pending = []
  calm : t.panicked = false
  once : ∀ id, occ t id ≤ 1
  fresh : ∀ id, t.next ≤ id → occ t id = 0
  good : ∀ d ∈ t.shaking.done, d.2 ≠ none
  good' : ∀ d ∈ t.opened.done, d.2 ≠ none

theorem pick {α : Type} (k : Kind) (s : Tasks α) (i : Nat) (h : s.done ≠ []) : ∃ x rest, s.done ~ x :: rest ∧
    s.step k (.poll i) = ({ s with done := rest, woken := false }, match x.2 with | none => .ended | some v => .value x.1 v) := by
  cases hd : s.done with
  | nil => exact absurd hd h
  | cons d l =>
    by_cases hi : i < (d :: l).length
    · refine ⟨(d :: l)[i], (d :: l).eraseIdx i, (List.getElem_cons_eraseIdx_perm hi).symm, ?_⟩
      have hg : (d :: l).getD i d = (d :: l)[i] := by rw [List.getD_eq_getElem?_getD, List.getElem?_eq_getElem hi]; rfl
      simp only [Tasks.step, hd, hg, if_pos hi]
      cases (d :: l)[i].2 <;> rfl
    · refine ⟨d, l, List.Perm.refl _, ?_⟩
      have hg : (d :: l).getD i d = d := by rw [List.getD_eq_getElem?_getD, List.getElem?_eq_none (by omega)]; rfl
      simp only [Tasks.step, hd, hg, if_neg hi, List.eraseIdx_cons_zero]
      cases d.2 <;> rfl

theorem count_filter_ne (l : List Nat) (a b : Nat) : (l.filter (· ≠ a)).count b = if b = a then 0 else l.count b := by
  by_cases h : b = a
  · subst h; simp [List.count_eq_zero]
  · simp [h, List.count_filter]

/-- What one command does to the account. -/
structure Account (t : Trans) (c : Cmd) (u : Trans) (o : Out) : Prop where
  inv : Inv u
  heard : ((shook c).bind say).toList ++ unheard t ~ [o].filter ofShake ++ unheard u
  closed : (left c).toList ++ unclosed t ~ (ofClose o).toList ++ unclosed u
  runs : t.opened.running.length + (accepted (c, o)).toList.length = u.opened.running.length + (left c).toList.length

theorem push_inv (k : Kind) (t : Trans) (hi : Inv t) (b : List Nat) (l g : Bool) :
    Inv { t with backlog := b, listening := l, rung := g, shaking := (t.shaking.step k (.push t.next)).1, next := t.next + 1 } := by
  refine ⟨hi.pending, hi.calm, fun id => ?_, fun id h => ?_, hi.good, hi.good'⟩
  · have h1 := hi.once id
    have h2 := hi.fresh id
    simp only [occ, Tasks.step, List.count_append, List.count_cons, List.count_nil, beq_iff_eq] at h1 h2 ⊢
    by_cases hn : t.next = id
    · have := h2 (by omega); simp only [hn, if_true]; omega
    · simp only [hn, if_false]; omega
  · simp only at h
    have h2 := hi.fresh id (by omega)
    simp only [occ, Tasks.step, List.count_append, List.count_cons, List.count_nil, beq_iff_eq] at h2 ⊢
    rw [if_neg (by omega)]; omega

theorem fields_inv (t u : Trans) (hi : Inv t) (h1 : u.pending = t.pending) (h2 : u.panicked = t.panicked) (h3 : u.next = t.next)
    (h4 : u.shaking.running = t.shaking.running) (h5 : u.shaking.done = t.shaking.done) (h6 : u.opened.running = t.opened.running)
    (h7 : u.opened.done = t.opened.done) : Inv u := by
  refine ⟨h1 ▸ hi.pending, h2 ▸ hi.calm, fun id => ?_, fun id h => ?_, h5 ▸ hi.good, h7 ▸ hi.good'⟩
  · have := hi.once id; simp only [occ, h4, h5, h6] at this ⊢; exact this
  · have := hi.fresh id (h3 ▸ h); simp only [occ, h4, h5, h6] at this ⊢; exact this

/-- The manager's answer, as in `Trans.step`. -/
def answer (chk : Bool) (k : Kind) (yes : Bool) (p : Trans × Out) : Trans × Out :=
  match p with
  | (t, .established inb r) => (if yes then t.accept chk k r else t.reject chk r, .established inb r)
  | (t, o) => (t, o)

theorem step_poll (chk : Bool) (k : Kind) (t : Trans) (i j : Nat) (yes : Bool) : t.step chk k (.poll i j yes) = answer chk k yes (t.poll k i j) := rfl

theorem shake_account (chk : Bool) (k : Kind) (yes : Bool) (t : Trans) (i j : Nat) (hi : Inv t) :
    Account t (.poll i j yes) (answer chk k yes (t.pollShaking k j)).1 (answer chk k yes (t.pollShaking k j)).2 := by
  unfold Trans.pollShaking
  by_cases he : (t.shaking.running.isEmpty && t.shaking.done.isEmpty) = true
  · rw [if_pos he]
    exact ⟨hi, by simp [answer, shook, ofShake], by simp [answer, left, ofClose], by simp [answer, accepted, left]⟩
  · rw [if_neg he]
    by_cases hd : t.shaking.done = []
    · rw [poll_none k _ j hd]
      exact ⟨fields_inv t _ hi rfl rfl rfl rfl rfl rfl rfl, by simp [answer, shook, ofShake, unheard], by simp [answer, left, ofClose, unclosed],
        by simp [answer, accepted, left]⟩
    · obtain ⟨x, rest, hp, hs⟩ := pick k t.shaking j hd
      rw [hs]
      have hx : x.2 ≠ none := hi.good x (hp.mem_iff.2 (by simp))
      have hrest : ∀ d ∈ rest, d.2 ≠ none := fun d h => hi.good d (hp.mem_iff.2 (by simp [h]))
      have hu : unheard t ~ (x.2.bind say).toList ++ rest.filterMap fun d => d.2.bind say := by
        have := hp.filterMap fun d => d.2.bind say
        rw [List.filterMap_cons] at this
        cases h : x.2.bind say <;> simp_all [unheard]
      have hc : ∀ id, (t.shaking.done.map (·.1)).count id = (if x.1 = id then 1 else 0) + (rest.map (·.1)).count id := by
        intro id
        rw [(hp.map (·.1)).count_eq id]
        simp only [List.map_cons, List.count_cons, beq_iff_eq]
        omega
      obtain ⟨n, v⟩ := x
      cases v with
      | none => exact absurd rfl hx
      | some v =>
        have hdrop : ∀ u : Trans, u.pending = [] → u.panicked = false → u.next = t.next → u.shaking.running = t.shaking.running → u.shaking.done = rest →
            u.opened.running = t.opened.running → u.opened.done = t.opened.done → Inv u := by
          intro u g1 g2 g3 g4 g5 g6 g7
          refine ⟨g1, g2, fun id => ?_, fun id h => ?_, g5 ▸ hrest, g7 ▸ hi.good'⟩
          · have := hi.once id; have := hc id; simp only [occ, g4, g5, g6] at *; omega
          · have := hi.fresh id (g3 ▸ h); have := hc id; simp only [occ, g4, g5, g6] at *; omega
        cases v with
        | failed r =>
          cases r with
          | none =>
            exact ⟨hdrop _ hi.pending hi.calm rfl rfl rfl rfl rfl, by simpa [answer, shook, ofShake, unheard, say, List.filter_cons] using hu,
              by simp [answer, left, ofClose, unclosed], by simp [answer, accepted, left]⟩
          | some r =>
            exact ⟨hdrop _ hi.pending hi.calm rfl rfl rfl rfl rfl, by simpa [answer, shook, ofShake, unheard, say, List.filter_cons] using hu,
              by simp [answer, left, ofClose, unclosed], by simp [answer, accepted, left]⟩
        | session inb r =>
          simp only [answer, Trans.hold, hi.pending, List.filter_nil]
          cases yes with
          | false =>
            simp only [Bool.false_eq_true, if_false, Trans.reject, List.lookup, beq_self_eq_true]
            exact ⟨hdrop _ (by simp) hi.calm rfl rfl rfl rfl rfl, by simpa [shook, ofShake, unheard, say, List.filter_cons] using hu,
              by simp [left, ofClose, unclosed], by simp [accepted, left]⟩
          | true =>
            simp only [if_true, Trans.accept, List.lookup, beq_self_eq_true]
            refine ⟨⟨by simp, hi.calm, fun id => ?_, fun id h => ?_, hrest, hi.good'⟩, by simpa [shook, ofShake, unheard, say, List.filter_cons] using hu,
              by simp [left, ofClose, unclosed, Tasks.step], by simp [accepted, left, Tasks.step]⟩
            · have := hi.once id; have := hc id
              simp only [occ, Tasks.step, List.count_append, List.count_cons, List.count_nil, beq_iff_eq] at *; omega
            · have := hi.fresh id h; have := hc id
              simp only [occ, Tasks.step, List.count_append, List.count_cons, List.count_nil, beq_iff_eq] at *; omega

theorem count_le_one_filter (l : List Nat) (id : Nat) (h : l.count id = 1) : (l.filter (· ≠ id)).length + 1 = l.length := by
  have h1 : l.countP (· ≠ id) = (l.filter (· ≠ id)).length := List.countP_eq_length_filter ..
  have h2 := List.length_eq_countP_add_countP (p := fun x => decide (x ≠ id)) (l := l)
  have h3 : l.countP (fun a => decide ¬ decide (a ≠ id) = true) = l.count id := by
    rw [List.count]; congr 1; funext a; by_cases h : a = id <;> simp [h]
  rw [h3, h1] at h2
  omega

theorem step_account (chk : Bool) (k : Kind) (t : Trans) (c : Cmd) (hi : Inv t)
    (hc : ∀ a, c = .around a → Real t a ∧ (∀ id, a ≠ .shakePanics id ∧ a ≠ .sessionPanics id)) :
    Account t c (t.step chk k c).1 (t.step chk k c).2 := by
  cases c with
  | connect =>
    exact ⟨push_inv k t hi t.backlog t.listening t.rung, by simp [Trans.step, Trans.connect, shook, ofShake, unheard, Tasks.step],
      by simp [Trans.step, Trans.connect, left, ofClose, unclosed], by simp [Trans.step, Trans.connect, accepted, left]⟩
  | poll i j yes =>
    rw [step_poll]
    by_cases hod : t.opened.done = []
    · rw [poll_eq k t i j hod]
      generalize hv : ({ t with
          rung := false
          opened := { t.opened with waker := true, inner := !t.opened.running.isEmpty, woken := false }
          shaking := { t.shaking with woken := false } } : Trans) = v
      have e1 : Inv v := by subst hv; exact fields_inv t _ hi rfl rfl rfl rfl rfl rfl rfl
      have e2 : unheard v = unheard t := by subst hv; rfl
      have e3 : unclosed v = unclosed t := by subst hv; rfl
      have e4 : v.opened.running = t.opened.running := by subst hv; rfl
      have f : Inv (v.pollListener k) ∧ unheard (v.pollListener k) = unheard v ∧ unclosed (v.pollListener k) = unclosed v ∧
          (v.pollListener k).opened.running = v.opened.running := by
        unfold Trans.pollListener
        cases v.backlog with
        | nil => exact ⟨fields_inv v _ e1 rfl rfl rfl rfl rfl rfl rfl, rfl, rfl, rfl⟩
        | cons c q => exact ⟨push_inv k v e1 _ _ _, rfl, rfl, rfl⟩
      have g := shake_account chk k yes (v.pollListener k) i j f.1
      refine ⟨g.inv, ?_, ?_, ?_⟩
      · rw [← e2, ← f.2.1]; exact g.heard
      · rw [← e3, ← f.2.2.1]; exact g.closed
      · rw [← e4, ← f.2.2.2]; exact g.runs
    · obtain ⟨x, rest, hp, hs⟩ := pick k ({ t.opened with woken := false } : Tasks RouterId) i hod
      have hx : x.2 ≠ none := hi.good' x (hp.mem_iff.2 (by simp))
      have hrest : ∀ d ∈ rest, d.2 ≠ none := fun d h => hi.good' d (hp.mem_iff.2 (by simp [h]))
      obtain ⟨n, v⟩ := x
      cases v with
      | none => exact absurd rfl hx
      | some r =>
        have hpoll : t.poll k i j = ({ t with rung := false, opened := { t.opened with done := rest, woken := false }, shaking := { t.shaking with woken := false } }, .closed r) := by
          simp only [Trans.poll, hs]
        rw [hpoll]
        have hu := hp.filterMap (·.2)
        refine ⟨⟨hi.pending, hi.calm, hi.once, hi.fresh, hi.good, hrest⟩, by simp [answer, shook, ofShake, unheard], ?_, by simp [answer, accepted, left]⟩
        simpa [answer, left, ofClose, unclosed] using hu
  | around a =>
    obtain ⟨hr, hp⟩ := hc a rfl
    cases a with
    | arrive c =>
      exact ⟨fields_inv t _ hi rfl rfl rfl rfl rfl rfl rfl, by simp [Trans.step, Trans.around, shook, ofShake, unheard],
        by simp [Trans.step, Trans.around, left, ofClose, unclosed], by simp [Trans.step, Trans.around, accepted, left]⟩
    | shakePanics id => exact absurd rfl (hp id).1
    | sessionPanics id => exact absurd rfl (hp id).2
    | shook id o =>
      have hm : id ∈ t.shaking.running := hr
      have h1 : 1 ≤ t.shaking.running.count id := List.count_pos_iff.2 hm
      simp only [Trans.step, Trans.around, Tasks.step, Tasks.ends, if_pos hm]
      refine ⟨⟨hi.pending, hi.calm, fun x => ?_, fun x h => ?_, ?_, hi.good'⟩, ?_, by simp [left, ofClose, unclosed], by simp [accepted, left]⟩
      · have := hi.once x
        simp only [occ, count_filter_ne, List.map_append, List.map_cons, List.map_nil, List.count_append, List.count_cons, List.count_nil, beq_iff_eq] at *
        by_cases hx : x = id
        · subst hx; simp only [if_true]; omega
        · rw [if_neg hx, if_neg (Ne.symm hx)]; omega
      · have := hi.fresh x h
        simp only [occ, count_filter_ne, List.map_append, List.map_cons, List.map_nil, List.count_append, List.count_cons, List.count_nil, beq_iff_eq] at *
        by_cases hx : x = id
        · subst hx; omega
        · rw [if_neg hx, if_neg (Ne.symm hx)]; omega
      · intro d hd
        simp only [List.mem_append, List.mem_singleton] at hd
        rcases hd with hd | hd
        · exact hi.good d hd
        · subst hd; simp
      · simp only [shook, ofShake, unheard, List.filterMap_append, Option.bind_some]
        cases h : say o with
        | none => simp [List.filter_cons, ofShake, h]
        | some v => simpa [List.filter_cons, ofShake, h] using (List.perm_append_singleton v _).symm
    | left id r =>
      have hm : id ∈ t.opened.running := hr
      have h1 : 1 ≤ t.opened.running.count id := List.count_pos_iff.2 hm
      have h2 := hi.once id
      simp only [Trans.step, Trans.around, Tasks.step, Tasks.ends, if_pos hm]
      refine ⟨⟨hi.pending, hi.calm, fun x => ?_, fun x h => ?_, hi.good, ?_⟩, by simp [shook, ofShake, unheard], ?_, ?_⟩
      · have := hi.once x
        simp only [occ, count_filter_ne] at *
        by_cases hx : x = id
        · subst hx; simp only [if_true]; omega
        · rw [if_neg hx]; omega
      · have := hi.fresh x h
        simp only [occ, count_filter_ne] at *
        by_cases hx : x = id
        · subst hx; omega
        · rw [if_neg hx]; omega
      · intro d hd
        simp only [List.mem_append, List.mem_singleton] at hd
        rcases hd with hd | hd
        · exact hi.good' d hd
        · subst hd; simp
      · simp [left, ofClose, unclosed, List.filterMap_append, List.Perm.symm (List.perm_append_singleton ..)]
      · have := count_le_one_filter t.opened.running id (by simp only [occ] at h2; omega)
        simp only [accepted, left, Option.toList_none, Option.toList_some, List.length_nil, List.length_singleton]
        omega

theorem run_account (chk : Bool) (k : Kind) (cs : List Cmd) (t : Trans) (hi : Inv t) (hs : Sane chk k t cs) :
    let r := t.run chk k cs
    Inv r.1 ∧ (cs.filterMap shook).filterMap say ++ unheard t ~ r.2.filter ofShake ++ unheard r.1 ∧
      cs.filterMap left ++ unclosed t ~ r.2.filterMap ofClose ++ unclosed r.1 ∧
      t.opened.running.length + ((cs.zip r.2).filterMap accepted).length = r.1.opened.running.length + (cs.filterMap left).length := by
  induction cs generalizing t with
  | nil => simp [Trans.run, hi]
  | cons c cs ih =>
    obtain ⟨h1, h2⟩ := hs
    have a := step_account chk k t c hi (by
      intro e he; subst he; exact h1)
    obtain ⟨i1, i2, i3, i4⟩ := ih _ a.inv h2
    simp only [Trans.run]
    refine ⟨i1, ?_, ?_, ?_⟩
    · have e1 : ((c :: cs).filterMap shook).filterMap say = ((shook c).bind say).toList ++ (cs.filterMap shook).filterMap say := by
        rw [List.filterMap_cons]; cases h : shook c with
        | none => simp
        | some v => simp only [List.filterMap_cons]; cases h' : say v <;> simp [h']
      have e2 : ((t.step chk k c).2 :: ((t.step chk k c).1.run chk k cs).2).filter ofShake =
          [(t.step chk k c).2].filter ofShake ++ ((t.step chk k c).1.run chk k cs).2.filter ofShake := by
        rw [← List.filter_append]; rfl
      rw [e1, e2]
      have p1 := a.heard
      calc _ ~ (cs.filterMap shook).filterMap say ++ (((shook c).bind say).toList ++ unheard t) := by
            rw [List.append_assoc, ← List.append_assoc, ← List.append_assoc]
            exact List.Perm.append_right _ List.perm_append_comm
        _ ~ (cs.filterMap shook).filterMap say ++ ([(t.step chk k c).2].filter ofShake ++ unheard (t.step chk k c).1) := List.Perm.append_left _ p1
        _ ~ [(t.step chk k c).2].filter ofShake ++ ((cs.filterMap shook).filterMap say ++ unheard (t.step chk k c).1) := by
            rw [← List.append_assoc, ← List.append_assoc]
            exact List.Perm.append_right _ List.perm_append_comm
        _ ~ [(t.step chk k c).2].filter ofShake ++ (((t.step chk k c).1.run chk k cs).2.filter ofShake ++ unheard ((t.step chk k c).1.run chk k cs).1) :=
            List.Perm.append_left _ i2
        _ ~ _ := by rw [List.append_assoc]
    · have e1 : (c :: cs).filterMap left = (left c).toList ++ cs.filterMap left := by
        rw [List.filterMap_cons]; cases h : left c <;> simp
      have e2 : ((t.step chk k c).2 :: ((t.step chk k c).1.run chk k cs).2).filterMap ofClose =
          (ofClose (t.step chk k c).2).toList ++ ((t.step chk k c).1.run chk k cs).2.filterMap ofClose := by
        rw [List.filterMap_cons]; cases h : ofClose (t.step chk k c).2 <;> simp
      rw [e1, e2]
      have p1 := a.closed
      calc _ ~ cs.filterMap left ++ ((left c).toList ++ unclosed t) := by
            rw [List.append_assoc, ← List.append_assoc, ← List.append_assoc]
            exact List.Perm.append_right _ List.perm_append_comm
        _ ~ cs.filterMap left ++ ((ofClose (t.step chk k c).2).toList ++ unclosed (t.step chk k c).1) := List.Perm.append_left _ p1
        _ ~ (ofClose (t.step chk k c).2).toList ++ (cs.filterMap left ++ unclosed (t.step chk k c).1) := by
            rw [← List.append_assoc, ← List.append_assoc]
            exact List.Perm.append_right _ List.perm_append_comm
        _ ~ (ofClose (t.step chk k c).2).toList ++ (((t.step chk k c).1.run chk k cs).2.filterMap ofClose ++ unclosed ((t.step chk k c).1.run chk k cs).1) :=
            List.Perm.append_left _ i3
        _ ~ _ := by rw [List.append_assoc]
    · have e1 : ((c :: cs).filterMap left).length = (left c).toList.length + (cs.filterMap left).length := by
        rw [List.filterMap_cons]; cases h : left c <;> simp [Nat.add_comm]
      have e2 : (((c :: cs).zip ((t.step chk k c).2 :: ((t.step chk k c).1.run chk k cs).2)).filterMap accepted).length =
          (accepted (c, (t.step chk k c).2)).toList.length + ((cs.zip ((t.step chk k c).1.run chk k cs).2).filterMap accepted).length := by
        rw [List.zip_cons_cons, List.filterMap_cons]; cases h : accepted (c, (t.step chk k c).2) <;> simp [Nat.add_comm]
      rw [e1, e2]
      have := a.runs
      omega

/-- **C263**: in every history of dials, connections that arrive, handshakes and sessions that end, and polls, with the manager accepting or
rejecting each connection as it hears of it: no assertion fails and no session is left undecided; the manager has heard once of every handshake that ended with a
session or was its own and failed, and of every session that closed, but for those that still wait to be polled for; and as many sessions run as it
accepted and have not closed. -/
theorem C263_account (chk : Bool) (k : Kind) (cs : List Cmd) (hs : Sane chk k {} cs) :
    let r := Trans.run chk k {} cs
    r.1.panicked = false ∧ r.1.pending = [] ∧
    (cs.filterMap shook).filterMap say ~ r.2.filter ofShake ++ r.1.shaking.done.filterMap (fun d => d.2.bind say) ∧
    cs.filterMap left ~ r.2.filterMap ofClose ++ r.1.opened.done.filterMap (·.2) ∧
    r.1.opened.running.length + (cs.filterMap left).length = ((cs.zip r.2).filterMap accepted).length := by
  have h := run_account chk k cs {} ⟨rfl, rfl, by simp [occ], by simp [occ], by simp, by simp⟩ hs
  obtain ⟨h1, h2, h3, h4⟩ := h
  refine ⟨h1.calm, h1.pending, ?_, ?_, ?_⟩
  · simpa [unheard] using h2
  · simpa [unclosed] using h3
  · simp only [List.length_nil] at h4; omega

/-- A dial and two connections from outside; one session is closed. -/
def dayOfPolls : List Cmd :=
  [.connect, .around (.arrive 1), .poll 0 0 true, .around (.shook 0 (.session false [7])), .around (.arrive 2), .poll 0 0 true, .poll 0 0 true,
   .around (.shook 1 (.failed none)), .poll 0 0 true, .around (.shook 2 (.session true [8])), .poll 0 0 false, .around (.left 0 [7]), .poll 0 0 true]

example : Sane true .tokio {} dayOfPolls ∧ (Trans.run true .tokio {} dayOfPolls).2.filter (· ≠ .idle) =
    [.established false [7], .established true [8], .closed [7]] := by
  refine ⟨by simp [Sane, dayOfPolls, Real]; decide +kernel, by decide +kernel⟩

end Emissary.Ntcp2.Transport
