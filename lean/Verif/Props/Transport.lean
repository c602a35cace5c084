import Verif.Model.Transport
import Verif.Props.I2np
import Mathlib.Data.List.Induction
/-!
# Connections and message delivery between routers (C91–C99)
-/
namespace Emissary.Transport
open Emissary Emissary.I2np Emissary.Routing

theorem put_same {α} (f : RouterId → α) (k : RouterId) (v : α) : put f k v k = v := by simp [put]
theorem put_ne {α} (f : RouterId → α) {k j : RouterId} (v : α) (h : j ≠ k) : put f k v j = f j := by simp [put, h]

/-! ## Specification: what the log says -/

/-- What an observer of the manager knows of router `r`: whether a connection to it is open, and how many dials and queries are
under way. -/
structure View where
  connected : Bool := false
  dials : Nat := 0
  queries : Nat := 0
deriving Repr, DecidableEq

/-- The end of something is the event that reports it; the beginning is the manager's action. -/
def View.step (r : RouterId) (v : View) (l : Event × List Action) : View :=
  let v := match l.1 with
    | .closed s => if s = r then { v with connected := false } else v
    | .outbound s | .failure s => if s = r then { v with dials := v.dials - 1 } else v
    | .found s _ | .notFound s => if s = r then { v with queries := v.queries - 1 } else v
    | _ => v
  { connected := v.connected || decide (.accept r ∈ l.2), dials := v.dials + l.2.count (.dial r),
    queries := v.queries + l.2.count (.query r) }

def view (r : RouterId) (log : List (Event × List Action)) : View := log.foldl (View.step r) {}

/-- An event the transports and the network database can give rise to: a dial ends only if there is one under way, and so on. -/
def Possible (log : List (Event × List Action)) : Event → Prop
  | .outbound r | .failure r => 0 < (view r log).dials
  | .found r _ | .notFound r => 0 < (view r log).queries
  | .closed r => (view r log).connected = true
  | _ => True

/-- Every event of the history was possible when it happened. -/
def Fair (log : List (Event × List Action)) : Prop := ∀ a e b, log = a ++ e :: b → Possible a e.1

theorem Fair.of_append {a b : List (Event × List Action)} (h : Fair (a ++ b)) : Fair a :=
  fun a' e b' h' => h a' e (b' ++ b) (by rw [h']; simp)

theorem manager_run_append (chk : Bool) (m : Manager) (a b : List Event) :
    m.run chk (a ++ b) = (((m.run chk a).1.run chk b).1, (m.run chk a).2 ++ ((m.run chk a).1.run chk b).2) := by
  induction a generalizing m with
  | nil => rfl
  | cons e a ih => simp only [List.cons_append, Manager.run, ih]

theorem view_snoc (r : RouterId) (log : List (Event × List Action)) (l : Event × List Action) :
    view r (log ++ [l]) = (view r log).step r l := by rw [view, List.foldl_append]; rfl

/-! ## C91: one connection per router -/

theorem connected_step (chk : Bool) (m : Manager) (e : Event) (r : RouterId) (v : View) (h : m.connected r = v.connected) :
    (m.step chk e).1.connected r = (v.step r (e, (m.step chk e).2)).connected := by
  have hd : ∀ (m : Manager) q s, (m.dial s q).1.connected = m.connected ∧ Action.accept r ∉ (m.dial s q).2 := by
    intro m q s
    unfold Manager.dial
    split
    · split <;> simp
    · split
      · simp
      · split <;> simp
  have ha : ∀ s, (m.admit s).1.connected r = (m.connected r || decide (.accept r ∈ (m.admit s).2)) := by
    intro s
    unfold Manager.admit
    by_cases hs : m.connected s = true
    · rw [if_pos hs]; simp
    · rw [if_neg hs]
      by_cases hr : r = s
      · subst hr; simp [put_same]
      · simp [put_ne _ _ hr, hr]
  cases e with
  | learn s => simp [Manager.step, View.step, h]
  | connect s q => simp [Manager.step, View.step, h, (hd m q s).1, (hd m q s).2]
  | inbound s =>
    simp only [Manager.step, View.step]
    split
    · simp [h]
    · rw [ha s, h]
  | outbound s =>
    simp only [Manager.step, View.step]
    split
    · rw [ha s, h]; split <;> rfl
    · split <;> split <;> simp [h]
  | failure s => simp only [Manager.step, View.step]; split <;> simp [h]
  | closed s =>
    simp only [Manager.step, View.step]
    by_cases hr : s = r
    · subst hr; simp [put_same]
    · simp [put_ne _ _ (Ne.symm hr), hr, h]
  | found s q =>
    simp only [Manager.step, View.step]
    have := hd { m with queries := put m.queries s false, pending := put m.pending s false } q s
    rw [this.1]
    split <;> simp [this.2, h]
  | notFound s => simp only [Manager.step, View.step]; split <;> simp [h]

theorem connected_run (chk : Bool) (es : List Event) (r : RouterId) :
    ((Manager.mk (fun _ => false) (fun _ => false) (fun _ => false) (fun _ => false)).run chk es).1.connected r =
      (view r ((Manager.mk (fun _ => false) (fun _ => false) (fun _ => false) (fun _ => false)).run chk es).2).connected := by
  induction es using List.reverseRecOn with
  | nil => rfl
  | append_singleton es e ih =>
    rw [manager_run_append]
    simp only [Manager.run]
    rw [view_snoc]
    exact connected_step chk _ e r _ ih

/-- Whatever happens, a connection to a router is accepted only if no other connection to that router is open, every connection a
transport establishes is accepted or rejected (not both), and no connection is accepted that was not established. -/
theorem C91_at_most_one_connection (es : List Event) (e : Event) (r : RouterId) :
    let m := (Manager.run false {} es).1
    let log := (Manager.run false {} es).2
    (.accept r ∈ (m.step false e).2 → (view r log).connected = false ∧ (e = .inbound r ∨ e = .outbound r)) ∧
    ((e = .inbound r ∨ e = .outbound r) → (m.step false e).2 = [.accept r] ∨ (m.step false e).2 = [.reject r]) := by
  intro m log
  have hc : m.connected r = (view r log).connected := connected_run false es r
  have hd : ∀ (m : Manager) q s, Action.accept r ∉ (m.dial s q).2 := by
    intro m q s
    unfold Manager.dial
    split
    · split <;> simp
    · split
      · simp
      · split <;> simp
  have ha : ∀ s, .accept r ∈ (m.admit s).2 → s = r ∧ m.connected r = false := by
    intro s
    unfold Manager.admit
    by_cases hs : m.connected s = true
    · rw [if_pos hs]; simp
    · rw [if_neg hs]; simp only [List.mem_singleton, Action.accept.injEq]; rintro rfl; exact ⟨rfl, by simpa using hs⟩
  have ha' : (m.admit r).2 = [.accept r] ∨ (m.admit r).2 = [.reject r] := by
    unfold Manager.admit; split <;> simp
  constructor
  · intro h
    rw [← hc]
    cases e with
    | learn s => simp [Manager.step] at h
    | connect s q => exact absurd h (hd m q s)
    | inbound s =>
      simp only [Manager.step] at h
      split at h
      · simp at h
      · obtain ⟨h1, h2⟩ := ha s h; subst h1; exact ⟨h2, Or.inl rfl⟩
    | outbound s =>
      simp only [Manager.step] at h
      split at h
      · obtain ⟨h1, h2⟩ := ha s h; subst h1; exact ⟨h2, Or.inr rfl⟩
      · simp at h
    | failure s => simp [Manager.step] at h
    | closed s => simp [Manager.step] at h
    | found s q => exact absurd h (hd _ q s)
    | notFound s => simp [Manager.step] at h
  · rintro (rfl | rfl)
    · simp only [Manager.step]; split
      · exact Or.inr rfl
      · exact ha'
    · simp only [Manager.step]; split
      · exact ha'
      · exact Or.inr rfl

/-- Two connections from the same router, and one after the first closed. -/
example : ((Manager.run false {} [.inbound [1], .inbound [1], .inbound [2], .closed [1], .inbound [1]]).2.map (·.2)) =
    [[.accept [1]], [.reject [1]], [.accept [2]], [], [.accept [1]]] := by decide +kernel

/-! ## C92: no router is dialled twice at once -/

/-- What the sets of the manager say about the log. -/
structure DialOk (m : Manager) (r : RouterId) (v : View) : Prop where
  conn : m.connected r = v.connected
  query : m.queries r = true ↔ 0 < v.queries
  one : v.queries ≤ 1 ∧ v.dials ≤ 1
  dial : 0 < v.dials → m.pending r = true ∧ m.known r = true ∧ m.queries r = false
  pend : m.queries r = true → m.pending r = true

theorem dial_cases (m : Manager) (r : RouterId) (q : Bool) :
    (m.dial r q = (m, [])) ∨
    (m.known r = true ∧ m.pending r = false ∧ m.dial r q = ({ m with pending := put m.pending r true }, [.dial r])) ∨
    (m.known r = false ∧ m.queries r = false ∧ q = true ∧
      m.dial r q = ({ m with pending := put m.pending r true, queries := put m.queries r true }, [.query r])) := by
  unfold Manager.dial
  by_cases h1 : m.known r = true
  · by_cases h2 : m.pending r = true
    · left; simp [h1, h2]
    · right; left; simp [h1, h2]
  · by_cases h2 : m.queries r = true
    · left; simp [h1, h2]
    · by_cases h3 : q = true
      · right; right; simp [h1, h2, h3]
      · left; simp [h1, h2, h3]

/-- The manager's actions after a dial attempt for another router do not concern `r`. -/
theorem dial_other (m : Manager) {r s : RouterId} (hs : s ≠ r) (q : Bool) :
    (m.dial s q).1.connected r = m.connected r ∧ (m.dial s q).1.queries r = m.queries r ∧ (m.dial s q).1.pending r = m.pending r ∧
    (m.dial s q).1.known r = m.known r ∧ (m.dial s q).2.count (.dial r) = 0 ∧ (m.dial s q).2.count (.query r) = 0 ∧
    .accept r ∉ (m.dial s q).2 := by
  rcases dial_cases m s q with h | ⟨_, _, h⟩ | ⟨_, _, _, h⟩ <;> rw [h] <;> simp [put_ne _ _ (Ne.symm hs), List.count_cons, hs]

theorem dial_ok {m : Manager} {r : RouterId} {v : View} (a : DialOk m r v) (q : Bool) :
    DialOk (m.dial r q).1 r
      { connected := v.connected || decide (.accept r ∈ (m.dial r q).2), dials := v.dials + (m.dial r q).2.count (.dial r),
        queries := v.queries + (m.dial r q).2.count (.query r) } := by
  obtain ⟨a1, a2, ⟨a3, a3'⟩, a4, a5⟩ := a
  rcases dial_cases m r q with h | ⟨k, p, h⟩ | ⟨k, p, _, h⟩ <;> rw [h]
  · exact ⟨by simpa using a1, by simpa using a2, by simpa using ⟨a3, a3'⟩, by simpa using a4, a5⟩
  · have hq : ¬ m.queries r = true := fun hq => by rw [a5 hq] at p; cases p
    have hd : ¬ 0 < v.dials := fun hd => by rw [(a4 hd).1] at p; cases p
    refine ⟨by simpa using a1, by simpa using a2, ⟨by simpa using a3, ?_⟩, ?_, ?_⟩
    · simp [List.count_cons]; omega
    · intro _; exact ⟨put_same .., k, by simpa using hq⟩
    · intro _; exact put_same ..
  · have hd : ¬ 0 < v.dials := fun hd => by rw [(a4 hd).2.1] at k; cases k
    have hq : ¬ 0 < v.queries := fun hq => by rw [a2.mpr hq] at p; cases p
    refine ⟨by simpa using a1, ?_, ⟨?_, ?_⟩, ?_, ?_⟩
    · simp [put_same, List.count_cons]
    · simp [List.count_cons]; omega
    · simp; exact a3'
    · intro h'; simp at h'; omega
    · intro _; exact put_same ..

theorem DialOk.step {m : Manager} {r : RouterId} {log : List (Event × List Action)} (a : DialOk m r (view r log)) (e : Event)
    (hp : Possible log e) : DialOk (m.step false e).1 r ((view r log).step r (e, (m.step false e).2)) := by
  have hconn := connected_step false m e r _ a.conn
  obtain ⟨a1, a2, ⟨a3, a3'⟩, a4, a5⟩ := a
  cases e with
  | learn s =>
    refine ⟨hconn, ?_, ?_, ?_, a5⟩ <;> simp only [Manager.step, View.step, List.count_nil, Nat.add_zero]
    · exact a2
    · exact ⟨a3, a3'⟩
    · intro h
      obtain ⟨h1, h2, h3⟩ := a4 h
      refine ⟨h1, ?_, h3⟩
      by_cases hs : r = s
      · subst hs; exact put_same ..
      · rw [put_ne _ _ hs]; exact h2
  | connect s q =>
    by_cases hs : s = r
    · subst hs
      exact dial_ok ⟨a1, a2, ⟨a3, a3'⟩, a4, a5⟩ q
    · obtain ⟨g1, g2, g3, g4, g5, g6, g7⟩ := dial_other m hs q
      refine ⟨hconn, ?_, ?_, ?_, ?_⟩ <;> simp only [Manager.step, View.step, g2, g3, g4, g5, g6, Nat.add_zero]
      · exact a2
      · exact ⟨a3, a3'⟩
      · exact a4
      · exact a5
  | inbound s =>
    simp only [Manager.step] at hconn ⊢
    by_cases hps : m.pending s = true
    · rw [if_pos hps] at hconn ⊢
      refine ⟨hconn, ?_, ?_, ?_, a5⟩ <;> simp [View.step]
      · exact a2
      · exact ⟨a3, a3'⟩
      · exact a4
    · rw [if_neg hps] at hconn ⊢
      unfold Manager.admit at hconn ⊢
      by_cases hcs : m.connected s = true
      · rw [if_pos hcs] at hconn ⊢
        refine ⟨hconn, ?_, ?_, ?_, a5⟩ <;> simp [View.step]
        · exact a2
        · exact ⟨a3, a3'⟩
        · exact a4
      · rw [if_neg hcs] at hconn ⊢
        have hpr : put m.pending s false r = m.pending r := by
          by_cases hs : r = s
          · subst hs; rw [put_same]; simpa using hps
          · rw [put_ne _ _ hs]
        refine ⟨hconn, ?_, ?_, ?_, ?_⟩ <;> simp [View.step, hpr]
        · exact a2
        · exact ⟨a3, a3'⟩
        · exact a4
        · exact a5
  | outbound s =>
    simp only [Manager.step] at hconn ⊢
    by_cases hs : s = r
    · subst hs
      obtain ⟨h1, h2, h3⟩ := a4 hp
      rw [if_pos h1] at hconn ⊢
      have hq : (view s log).queries = 0 := by
        rcases Nat.eq_zero_or_pos (view s log).queries with h | h
        · exact h
        · rw [a2.mpr h] at h3; cases h3
      have hd : (view s log).dials = 1 := by have : 0 < (view s log).dials := hp; omega
      unfold Manager.admit at hconn ⊢
      by_cases hcs : m.connected s = true
      · rw [if_pos hcs] at hconn ⊢
        refine ⟨hconn, ?_, ?_, ?_, ?_⟩ <;> simp [View.step, h3, hq, hd]
      · rw [if_neg hcs] at hconn ⊢
        refine ⟨hconn, ?_, ?_, ?_, ?_⟩ <;> simp [View.step, h3, hq, hd]
    · by_cases hps : m.pending s = true
      · rw [if_pos hps] at hconn ⊢
        unfold Manager.admit at hconn ⊢
        by_cases hcs : m.connected s = true
        · rw [if_pos hcs] at hconn ⊢
          refine ⟨hconn, ?_, ?_, ?_, a5⟩ <;> simp [View.step, hs]
          · exact a2
          · exact ⟨a3, a3'⟩
          · exact a4
        · rw [if_neg hcs] at hconn ⊢
          refine ⟨hconn, ?_, ?_, ?_, ?_⟩ <;> simp [View.step, hs, put_ne _ _ (Ne.symm hs)]
          · exact a2
          · exact ⟨a3, a3'⟩
          · exact a4
          · exact a5
      · rw [if_neg hps] at hconn ⊢
        refine ⟨hconn, ?_, ?_, ?_, a5⟩ <;> simp [View.step, hs]
        · exact a2
        · exact ⟨a3, a3'⟩
        · exact a4
  | failure s =>
    by_cases hs : s = r
    · subst hs
      obtain ⟨h1, h2, h3⟩ := a4 hp
      have hq : (view s log).queries = 0 := by
        rcases Nat.eq_zero_or_pos (view s log).queries with h | h
        · exact h
        · rw [a2.mpr h] at h3; cases h3
      have hd : (view s log).dials = 1 := by have : 0 < (view s log).dials := hp; omega
      refine ⟨hconn, ?_, ?_, ?_, ?_⟩ <;> simp [Manager.step, View.step, h3, hq, hd]
    · refine ⟨hconn, ?_, ?_, ?_, ?_⟩ <;> simp [Manager.step, View.step, hs, put_ne _ _ (Ne.symm hs)]
      · exact a2
      · exact ⟨a3, a3'⟩
      · exact a4
      · exact a5
  | closed s =>
    by_cases hs : s = r
    · refine ⟨hconn, ?_, ?_, ?_, a5⟩ <;> simp [Manager.step, View.step, hs]
      · exact a2
      · exact ⟨a3, a3'⟩
      · exact a4
    · refine ⟨hconn, ?_, ?_, ?_, a5⟩ <;> simp [Manager.step, View.step, hs]
      · exact a2
      · exact ⟨a3, a3'⟩
      · exact a4
  | found s q =>
    by_cases hs : s = r
    · subst hs
      have hq : (view s log).queries = 1 := by have : 0 < (view s log).queries := hp; omega
      have hd : (view s log).dials = 0 := by
        rcases Nat.eq_zero_or_pos (view s log).dials with h | h
        · exact h
        · have := (a4 h).2.2; rw [a2.mpr hp] at this; cases this
      have b : DialOk { m with queries := put m.queries s false, pending := put m.pending s false } s
          { (view s log) with queries := (view s log).queries - 1 } := by
        refine ⟨a1, ?_, ?_, ?_, ?_⟩ <;> simp [put_same, hq, hd]
      have := dial_ok b q
      simp only [Manager.step, View.step, if_true]
      exact this
    · obtain ⟨g1, g2, g3, g4, g5, g6, g7⟩ :=
        dial_other { m with queries := put m.queries s false, pending := put m.pending s false } hs q
      refine ⟨hconn, ?_, ?_, ?_, ?_⟩ <;>
        simp only [Manager.step, View.step, if_neg hs, g2, g3, g4, g5, g6, Nat.add_zero, put_ne _ _ (Ne.symm hs)]
      · exact a2
      · exact ⟨a3, a3'⟩
      · exact a4
      · exact a5
  | notFound s =>
    by_cases hs : s = r
    · subst hs
      have hq : (view s log).queries = 1 := by have : 0 < (view s log).queries := hp; omega
      have hd : (view s log).dials = 0 := by
        rcases Nat.eq_zero_or_pos (view s log).dials with h | h
        · exact h
        · have := (a4 h).2.2; rw [a2.mpr hp] at this; cases this
      refine ⟨hconn, ?_, ?_, ?_, ?_⟩ <;> simp [Manager.step, View.step, put_same, hq, hd]
    · refine ⟨hconn, ?_, ?_, ?_, ?_⟩ <;> simp [Manager.step, View.step, hs, put_ne _ _ (Ne.symm hs)]
      · exact a2
      · exact ⟨a3, a3'⟩
      · exact a4
      · exact a5

theorem DialOk.run (es : List Event) (r : RouterId) (hf : Fair (Manager.run false {} es).2) :
    DialOk (Manager.run false {} es).1 r (view r (Manager.run false {} es).2) := by
  induction es using List.reverseRecOn with
  | nil => refine ⟨rfl, ?_, ?_, ?_, ?_⟩ <;> simp [Manager.run, view]
  | append_singleton es e ih =>
    rw [manager_run_append] at hf ⊢
    simp only [Manager.run] at hf ⊢
    rw [view_snoc]
    exact (ih hf.of_append).step e (hf _ _ [] rfl)

/-- While a router is being dialled or looked up, it is not dialled or looked up again. -/
theorem C92_not_dialled_twice_at_once (es : List Event) (e : Event) (r : RouterId) :
    let m := (Manager.run false {} es).1
    let log := (Manager.run false {} es).2
    Fair log → Possible log e →
      (view r (log ++ [(e, (m.step false e).2)])).dials + (view r (log ++ [(e, (m.step false e).2)])).queries ≤ 1 := by
  intro m log hf hp
  have a := (DialOk.run es r hf).step e hp
  rw [view_snoc]
  obtain ⟨_, a2, ⟨a3, a3'⟩, a4, _⟩ := a
  generalize View.step r (view r log) (e, (m.step false e).2) = v at *
  rcases Nat.eq_zero_or_pos v.dials with h | h
  · omega
  · have hq := (a4 h).2.2
    rcases Nat.eq_zero_or_pos v.queries with h' | h'
    · omega
    · rw [a2.mpr h'] at hq; cases hq

/-- A router is looked up, asked for again, found, dialled, asked for again, and reached. -/
example :
    let log := (Manager.run false {} [.connect [1] true, .connect [1] true, .learn [1], .found [1] true, .connect [1] true,
      .outbound [1]]).2
    log.map (·.2) = [[.query [1]], [], [], [.dial [1]], [], [.accept [1]]] ∧
    (view [1] (log.take 5)).dials = 1 ∧ (view [1] log) = ⟨true, 0, 0⟩ := by decide +kernel

/-! ## C93: a router can be reached again after its connection closed -/

theorem view_nil (r : RouterId) : view r [] = {} := rfl

instance (log : List (Event × List Action)) (e : Event) : Decidable (Possible log e) := by
  cases e <;> unfold Possible <;> infer_instance

theorem fair_of_take {log : List (Event × List Action)} (h : ∀ i, (hi : i < log.length) → Possible (log.take i) (log[i]).1) :
    Fair log := by
  intro a e b hab
  subst hab
  have := h a.length (by simp)
  simpa using this

/-- A router connects to us while we are about to dial it; the dial succeeds and is turned down; the connection closes. -/
def lockOut (r : RouterId) : List Event := [.learn r, .inbound r, .connect r true, .outbound r, .closed r]

structure Stuck (m : Manager) (r : RouterId) (v : View) : Prop where
  pend : m.pending r = true
  known : m.known r = true
  quer : m.queries r = false
  none : v.dials = 0 ∧ v.queries = 0

theorem Stuck.step {m : Manager} {r : RouterId} {log : List (Event × List Action)} (a : Stuck m r (view r log)) (e : Event)
    (hp : Possible log e) : Stuck (m.step false e).1 r ((view r log).step r (e, (m.step false e).2)) ∧
      .dial r ∉ (m.step false e).2 ∧ .accept r ∉ (m.step false e).2 ∧ .query r ∉ (m.step false e).2 ∧
      .report r ∉ (m.step false e).2 := by
  obtain ⟨a1, a2, a3, a4, a5⟩ := a
  have hself : ∀ q, m.dial r q = (m, []) := by intro q; simp [Manager.dial, a2, a1]
  have hrep : ∀ (m : Manager) s q, .report r ∉ (m.dial s q).2 := by
    intro m s q; rcases dial_cases m s q with h | ⟨_, _, h⟩ | ⟨_, _, _, h⟩ <;> rw [h] <;> simp
  cases e with
  | learn s =>
    refine ⟨⟨a1, ?_, a3, ?_⟩, ?_⟩
    · by_cases hs : r = s
      · subst hs; exact put_same ..
      · exact (put_ne _ _ hs).trans a2
    · simpa [Manager.step, View.step] using ⟨a4, a5⟩
    · simp [Manager.step]
  | connect s q =>
    by_cases hs : s = r
    · subst hs
      simp only [Manager.step, hself, View.step]
      exact ⟨⟨a1, a2, a3, by simpa using ⟨a4, a5⟩⟩, by simp⟩
    · obtain ⟨g1, g2, g3, g4, g5, g6, g7⟩ := dial_other m hs q
      refine ⟨⟨g3.trans a1, g4.trans a2, g2.trans a3, ?_⟩, ?_, g7, ?_, hrep m s q⟩
      · simp only [Manager.step, View.step, g5, g6]; exact ⟨a4, a5⟩
      · exact List.count_eq_zero.mp g5
      · exact List.count_eq_zero.mp g6
  | inbound s =>
    simp only [Manager.step]
    by_cases hps : m.pending s = true
    · rw [if_pos hps]
      exact ⟨⟨a1, a2, a3, by simpa [View.step] using ⟨a4, a5⟩⟩, by simp⟩
    · rw [if_neg hps]
      have hs : r ≠ s := fun h => hps (h ▸ a1)
      unfold Manager.admit
      split
      · exact ⟨⟨a1, a2, a3, by simpa [View.step] using ⟨a4, a5⟩⟩, by simp⟩
      · exact ⟨⟨(put_ne _ _ hs).trans a1, a2, a3, by simpa [View.step] using ⟨a4, a5⟩⟩, by simp [hs]⟩
  | outbound s =>
    have hs : s ≠ r := by rintro rfl; exact absurd hp (by simp [Possible, a4])
    simp only [Manager.step]
    by_cases hps : m.pending s = true
    · rw [if_pos hps]
      unfold Manager.admit
      split
      · exact ⟨⟨a1, a2, a3, by simpa [View.step, hs] using ⟨a4, a5⟩⟩, by simp⟩
      · exact ⟨⟨(put_ne _ _ (Ne.symm hs)).trans a1, a2, a3, by simpa [View.step, hs] using ⟨a4, a5⟩⟩, by simp [Ne.symm hs]⟩
    · rw [if_neg hps]
      exact ⟨⟨a1, a2, a3, by simpa [View.step, hs] using ⟨a4, a5⟩⟩, by simp⟩
  | failure s =>
    have hs : s ≠ r := by rintro rfl; exact absurd hp (by simp [Possible, a4])
    exact ⟨⟨(put_ne _ _ (Ne.symm hs)).trans a1, a2, a3, by simpa [Manager.step, View.step, hs] using ⟨a4, a5⟩⟩,
      by simp [Manager.step]⟩
  | closed s =>
    refine ⟨⟨a1, a2, a3, ?_⟩, by simp [Manager.step]⟩
    by_cases hs : s = r <;> simpa [Manager.step, View.step, hs] using ⟨a4, a5⟩
  | found s q =>
    have hs : s ≠ r := by rintro rfl; exact absurd hp (by simp [Possible, a5])
    obtain ⟨g1, g2, g3, g4, g5, g6, g7⟩ :=
      dial_other { m with queries := put m.queries s false, pending := put m.pending s false } hs q
    refine ⟨⟨?_, ?_, ?_, ?_⟩, List.count_eq_zero.mp g5, g7, List.count_eq_zero.mp g6, hrep _ s q⟩
    · exact g3.trans ((put_ne _ _ (Ne.symm hs)).trans a1)
    · exact g4.trans a2
    · exact g2.trans ((put_ne _ _ (Ne.symm hs)).trans a3)
    · simp only [Manager.step, View.step, g5, g6, if_neg hs]; exact ⟨a4, a5⟩
  | notFound s =>
    have hs : s ≠ r := by rintro rfl; exact absurd hp (by simp [Possible, a5])
    refine ⟨⟨(put_ne _ _ (Ne.symm hs)).trans a1, a2, (put_ne _ _ (Ne.symm hs)).trans a3, ?_⟩, by simp [Manager.step, Ne.symm hs]⟩
    simpa [Manager.step, View.step, hs] using ⟨a4, a5⟩

theorem lockOut_run (r : RouterId) :
    (Manager.run false {} (lockOut r)).2 =
      [(.learn r, []), (.inbound r, [.accept r]), (.connect r true, [.dial r]), (.outbound r, [.reject r]), (.closed r, [])] ∧
    Stuck (Manager.run false {} (lockOut r)).1 r (view r (Manager.run false {} (lockOut r)).2) := by
  have e : (Manager.run false {} (lockOut r)).2 =
      [(.learn r, []), (.inbound r, [.accept r]), (.connect r true, [.dial r]), (.outbound r, [.reject r]), (.closed r, [])] := by
    simp [lockOut, Manager.run, Manager.step, Manager.admit, Manager.dial, put_same]
  refine ⟨e, ?_, ?_, ?_, ?_⟩
  · simp [lockOut, Manager.run, Manager.step, Manager.admit, Manager.dial, put_same]
  · simp [lockOut, Manager.run, Manager.step, Manager.admit, Manager.dial, put_same]
  · simp [lockOut, Manager.run, Manager.step, Manager.admit, Manager.dial, put_same]
  · rw [e]; simp [view, View.step]

/-- The property fails for every router: after a history that all its parts may show (and after which no connection to the router
is open and no dial or query is under way), every request to connect to the router is ignored, every connection from it is
rejected, and nothing is reported, whatever else happens. -/
theorem C93_locked_out_forever_violated (r : RouterId) :
    (Fair (Manager.run false {} (lockOut r)).2 ∧ view r (Manager.run false {} (lockOut r)).2 = ⟨false, 0, 0⟩) ∧
    ∀ es, Fair (Manager.run false {} (lockOut r ++ es)).2 →
      ∀ l ∈ (Manager.run false {} (lockOut r ++ es)).2.drop 5,
        .dial r ∉ l.2 ∧ .accept r ∉ l.2 ∧ .query r ∉ l.2 ∧ .report r ∉ l.2 := by
  obtain ⟨e0, st⟩ := lockOut_run r
  refine ⟨⟨?_, by rw [e0]; simp [view, View.step]⟩, ?_⟩
  · rw [e0]
    refine fair_of_take ?_
    intro i hi
    match i, hi with
    | 0, _ => simp [Possible]
    | 1, _ => simp [Possible]
    | 2, _ => simp [Possible]
    | 3, _ => simp [Possible, view, View.step]
    | 4, _ => simp [Possible, view, View.step]
  · intro es
    suffices H : Fair (Manager.run false {} (lockOut r ++ es)).2 →
        Stuck (Manager.run false {} (lockOut r ++ es)).1 r (view r (Manager.run false {} (lockOut r ++ es)).2) ∧
        5 ≤ (Manager.run false {} (lockOut r ++ es)).2.length ∧
        ∀ l ∈ (Manager.run false {} (lockOut r ++ es)).2.drop 5,
          .dial r ∉ l.2 ∧ .accept r ∉ l.2 ∧ .query r ∉ l.2 ∧ .report r ∉ l.2 from fun h => (H h).2.2
    induction es using List.reverseRecOn with
    | nil => rw [List.append_nil]; intro _; exact ⟨st, by rw [e0]; simp, by rw [e0]; simp⟩
    | append_singleton es e ih =>
      intro hf
      rw [← List.append_assoc, manager_run_append] at hf ⊢
      simp only [Manager.run] at hf ⊢
      obtain ⟨i1, i2, i3⟩ := ih hf.of_append
      obtain ⟨s1, s2⟩ := i1.step e (hf _ _ [] rfl)
      refine ⟨by rw [view_snoc]; exact s1, by simp; omega, ?_⟩
      intro l hl
      rw [List.drop_append_of_le_length i2, List.mem_append, List.mem_singleton] at hl
      rcases hl with hl | rfl
      · exact i3 l hl
      · exact s2

/-! ## C94: a request to connect leads somewhere -/

structure ReqOk (m : Manager) (r : RouterId) (log : List (Event × List Action)) : Prop where
  ok : DialOk m r (view r log)
  known : m.known r = true ↔ ∃ as, (.learn r, as) ∈ log
  pend : m.pending r = true → 0 < (view r log).dials ∨ 0 < (view r log).queries ∨ (.outbound r, [.reject r]) ∈ log

theorem known_step (m : Manager) (e : Event) (r : RouterId) :
    (m.step false e).1.known r = (m.known r || decide (e = .learn r)) := by
  have hd : ∀ (m : Manager) s q, (m.dial s q).1.known = m.known := by
    intro m s q; rcases dial_cases m s q with h | ⟨_, _, h⟩ | ⟨_, _, _, h⟩ <;> rw [h]
  have ha : ∀ s, (m.admit s).1.known = m.known := by intro s; unfold Manager.admit; split <;> rfl
  cases e with
  | learn s =>
    by_cases hs : r = s
    · subst hs; simp [Manager.step, put_same]
    · simp [Manager.step, put_ne _ _ hs, Ne.symm hs]
  | connect s q => simp [Manager.step, hd]
  | inbound s => simp only [Manager.step]; split <;> simp [ha]
  | outbound s => simp only [Manager.step]; split <;> simp [ha]
  | failure s => simp [Manager.step]
  | closed s => simp [Manager.step]
  | found s q => simp [Manager.step, hd]
  | notFound s => simp [Manager.step]

theorem pend_step {m : Manager} {r : RouterId} {log : List (Event × List Action)} (a : DialOk m r (view r log))
    (h : m.pending r = true → 0 < (view r log).dials ∨ 0 < (view r log).queries ∨ (.outbound r, [.reject r]) ∈ log) (e : Event)
    (hp : Possible log e) (hp' : (m.step false e).1.pending r = true) :
    0 < ((view r log).step r (e, (m.step false e).2)).dials ∨ 0 < ((view r log).step r (e, (m.step false e).2)).queries ∨
      (.outbound r, [.reject r]) ∈ log ++ [(e, (m.step false e).2)] := by
  have old : m.pending r = true → ((view r log).step r (e, (m.step false e).2)).dials ≥ (view r log).dials →
      ((view r log).step r (e, (m.step false e).2)).queries ≥ (view r log).queries →
      0 < ((view r log).step r (e, (m.step false e).2)).dials ∨ 0 < ((view r log).step r (e, (m.step false e).2)).queries ∨
      (.outbound r, [.reject r]) ∈ log ++ [(e, (m.step false e).2)] := fun h1 h2 h3 => by
    rcases h h1 with h | h | h
    · exact Or.inl (Nat.lt_of_lt_of_le h h2)
    · exact Or.inr (Or.inl (Nat.lt_of_lt_of_le h h3))
    · exact Or.inr (Or.inr (List.mem_append_left _ h))
  cases e with
  | learn s => exact old hp' (by simp [View.step]) (by simp [View.step])
  | connect s q =>
    by_cases hs : s = r
    · subst hs
      simp only [Manager.step] at hp' old ⊢
      rcases dial_cases m s q with e | ⟨_, _, e⟩ | ⟨_, _, _, e⟩
      · rw [e] at hp' old ⊢; exact old hp' (by simp [View.step]) (by simp [View.step])
      · rw [e]; left; simp [View.step]
      · rw [e]; right; left; simp [View.step]
    · obtain ⟨g1, g2, g3, g4, g5, g6, g7⟩ := dial_other m hs q
      exact old (g3.symm.trans hp') (by simp [View.step]) (by simp [View.step])
  | inbound s =>
    refine old ?_ (by simp [View.step]) (by simp [View.step])
    simp only [Manager.step] at hp'
    split at hp'
    · exact hp'
    · unfold Manager.admit at hp'
      split at hp'
      · exact hp'
      · by_cases hs : r = s
        · subst hs; simp [put_same] at hp'
        · simpa [put_ne _ _ hs] using hp'
  | outbound s =>
    by_cases hs : s = r
    · subst hs
      have h1 := (a.dial hp).1
      simp only [Manager.step, if_pos h1, Manager.admit] at hp' ⊢
      by_cases hcs : m.connected s = true
      · right; right; simp [hcs]
      · simp [hcs, put_same] at hp'
    · refine old ?_ (by simp [View.step, hs]) (by simp [View.step, hs])
      simp only [Manager.step] at hp'
      split at hp'
      · unfold Manager.admit at hp'
        split at hp'
        · exact hp'
        · simpa [put_ne _ _ (Ne.symm hs)] using hp'
      · exact hp'
  | failure s =>
    by_cases hs : s = r
    · subst hs; simp [Manager.step, put_same] at hp'
    · exact old (by simpa [Manager.step, put_ne _ _ (Ne.symm hs)] using hp') (by simp [View.step, hs]) (by simp [View.step, hs])
  | closed s =>
    by_cases hs : s = r
    · exact old hp' (by simp [View.step, hs]) (by simp [View.step, hs])
    · exact old hp' (by simp [View.step, hs]) (by simp [View.step, hs])
  | found s q =>
    by_cases hs : s = r
    · subst hs
      simp only [Manager.step] at hp' ⊢
      rcases dial_cases { m with queries := put m.queries s false, pending := put m.pending s false } s q with
        e | ⟨_, _, e⟩ | ⟨_, _, _, e⟩
      · rw [e] at hp'; simp [put_same] at hp'
      · rw [e]; left; simp [View.step]
      · rw [e]; right; left; simp [View.step]
    · obtain ⟨g1, g2, g3, g4, g5, g6, g7⟩ :=
        dial_other { m with queries := put m.queries s false, pending := put m.pending s false } hs q
      refine old ?_ (by simp [View.step, hs]) (by simp [View.step, hs])
      have := g3.symm.trans hp'
      simpa [put_ne _ _ (Ne.symm hs)] using this
  | notFound s =>
    by_cases hs : s = r
    · subst hs; simp [Manager.step, put_same] at hp'
    · exact old (by simpa [Manager.step, put_ne _ _ (Ne.symm hs)] using hp') (by simp [View.step, hs]) (by simp [View.step, hs])

theorem ReqOk.run (es : List Event) (r : RouterId) (hf : Fair (Manager.run false {} es).2) :
    ReqOk (Manager.run false {} es).1 r (Manager.run false {} es).2 := by
  induction es using List.reverseRecOn with
  | nil => exact ⟨DialOk.run [] r hf, by simp [Manager.run], by simp [Manager.run]⟩
  | append_singleton es e ih =>
    have all := DialOk.run (es ++ [e]) r hf
    rw [manager_run_append] at hf all ⊢
    simp only [Manager.run] at hf all ⊢
    obtain ⟨i1, i2, i3⟩ := ih hf.of_append
    refine ⟨all, ?_, ?_⟩
    · rw [known_step]
      simp only [Bool.or_eq_true, i2, decide_eq_true_eq, List.mem_append, List.mem_singleton, Prod.mk.injEq]
      constructor
      · rintro (⟨as, h⟩ | h)
        · exact ⟨as, Or.inl h⟩
        · exact ⟨_, Or.inr ⟨h.symm, rfl⟩⟩
      · rintro ⟨as, h | ⟨h, _⟩⟩
        · exact Or.inl ⟨as, h⟩
        · exact Or.inr h.symm
    · intro hp
      rw [view_snoc]
      exact pend_step i1 i3 e (hf _ _ [] rfl) hp

/-- After a request to connect, the router is being dialled or looked up, if it is known or the network database takes the query,
and if no connection we opened to it was ever turned down (see `C93_locked_out_forever_violated`). -/
theorem C94_request_starts_a_dial_partial (es : List Event) (r : RouterId) (queue : Bool) :
    let m := (Manager.run false {} es).1
    let log := (Manager.run false {} es).2
    Fair log → (.outbound r, [.reject r]) ∉ log → (queue = true ∨ ∃ as, (.learn r, as) ∈ log) →
    let v := view r (log ++ [(.connect r queue, (m.step false (.connect r queue)).2)])
    v.dials + v.queries = 1 := by
  intro m log hf hno hq v
  have a := ReqOk.run es r hf
  have hle := C92_not_dialled_twice_at_once es (.connect r queue) r hf trivial
  have hge : 0 < v.dials ∨ 0 < v.queries := by
    have b : v = (view r log).step r (.connect r queue, (m.dial r queue).2) := view_snoc ..
    have c : v.dials = (view r log).dials + (m.dial r queue).2.count (.dial r) ∧
        v.queries = (view r log).queries + (m.dial r queue).2.count (.query r) := by
      rw [b]; exact ⟨rfl, rfl⟩
    by_cases hk : m.known r = true
    · by_cases hp : m.pending r = true
      · rcases a.pend hp with h | h | h
        · left; rw [c.1]; exact Nat.lt_of_lt_of_le h (Nat.le_add_right ..)
        · right; rw [c.2]; exact Nat.lt_of_lt_of_le h (Nat.le_add_right ..)
        · exact absurd h hno
      · left; rw [c.1]; simp [Manager.dial, hk, hp]
    · by_cases hqs : m.queries r = true
      · right; rw [c.2]; exact Nat.lt_of_lt_of_le (a.ok.query.mp hqs) (Nat.le_add_right ..)
      · right; rw [c.2]
        have hq : queue = true := by
          rcases hq with h | h
          · exact h
          · exact absurd (a.known.mpr h) hk
        simp [Manager.dial, hk, hqs, hq]
  have hle' : v.dials + v.queries ≤ 1 := hle
  omega

/-- The property fails if the channel to the network database is full: after any history in which nothing is under way for a router
nobody has told us about, the request has no effect, and nothing is reported. -/
theorem C94_request_forgotten_violated (es : List Event) (r : RouterId) :
    let m := (Manager.run false {} es).1
    let log := (Manager.run false {} es).2
    Fair log → (∀ as, (.learn r, as) ∉ log) → m.step false (.connect r false) = (m, []) := by
  intro m log hf hno
  have a := ReqOk.run es r hf
  have hk : ¬ m.known r = true := fun h => by obtain ⟨as, h⟩ := a.known.mp h; exact hno as h
  simp only [Manager.step, Manager.dial, if_neg hk]
  split <;> simp

/-! ## C95–C97: messages to other routers -/

/-- The messages the router was asked to send to `r`, with the feedback channels. -/
def sentTo (r : RouterId) (log : List (SendOp × List Effect)) : List (Bytes × Option Nat) :=
  log.filterMap fun l => match l.1 with
    | .send s m fb => if s = r then some (m, fb) else none
    | _ => none

/-- A hand-over of a message to a session, with its feedback channel. -/
abbrev Delivery := RouterId × Bytes × Option Nat

/-- The effect of hand-overs: each message is put into the session's channel, and then its feedback channel (if any) is signalled. -/
def effects (ds : List Delivery) : List Effect := ds.flatMap fun d => .handed d.1 d.2.1 :: (d.2.2.map Effect.signal).toList

/-- The hand-overs to `r`. -/
def handedTo (r : RouterId) (ds : List Delivery) : List (Bytes × Option Nat) := (ds.filter (·.1 == r)).map (·.2)

def allEffects (log : List (SendOp × List Effect)) : List Effect := log.flatMap (·.2)

theorem effects_append (a b : List Delivery) : effects (a ++ b) = effects a ++ effects b := List.flatMap_append
theorem handedTo_append (r : RouterId) (a b : List Delivery) : handedTo r (a ++ b) = handedTo r a ++ handedTo r b := by
  simp [handedTo]
theorem sentTo_append (r : RouterId) (a b : List (SendOp × List Effect)) : sentTo r (a ++ b) = sentTo r a ++ sentTo r b := by
  simp [sentTo, List.filterMap_append]
theorem allEffects_append (a b : List (SendOp × List Effect)) : allEffects (a ++ b) = allEffects a ++ allEffects b :=
  List.flatMap_append

theorem sender_run_append (chk : Bool) (s : Sender) (a b : List SendOp) :
    s.run chk (a ++ b) = (((s.run chk a).1.run chk b).1, (s.run chk a).2 ++ ((s.run chk a).1.run chk b).2) := by
  induction a generalizing s with
  | nil => rfl
  | cons e a ih => simp only [List.cons_append, Sender.run, ih]

/-- Messages waiting for a connection to `r`. -/
def Sender.waiting (s : Sender) (r : RouterId) : List (Bytes × Option Nat) :=
  match s.routers r with
  | some (.dialing p) => p
  | _ => []

theorem hand_ok (s : Sender) (r : RouterId) (m : Bytes) (fb : Option Nat) :
    (s.hand r m fb).1.routers = s.routers ∧
    ((s.hand r m fb).2 = effects [] ∨ (s.hand r m fb).2 = effects [(r, m, fb)]) := by
  unfold Sender.hand
  cases s.links r with
  | none => exact ⟨rfl, Or.inl rfl⟩
  | some c =>
    dsimp only
    generalize c.trySend m = x
    obtain ⟨c', res⟩ := x
    cases res with
    | ok => exact ⟨rfl, Or.inr (by simp [effects])⟩
    | full => exact ⟨rfl, Or.inl rfl⟩
    | closed => exact ⟨rfl, Or.inl rfl⟩

theorem handedTo_same (r : RouterId) (p : List (Bytes × Option Nat)) : handedTo r (p.map fun x => (r, x)) = p := by
  induction p with
  | nil => rfl
  | cons x p ih => simp [handedTo] at ih ⊢; exact ih

theorem handedTo_other {r s : RouterId} (h : s ≠ r) (p : List (Bytes × Option Nat)) : handedTo r (p.map fun x => (s, x)) = [] := by
  simp only [handedTo, List.map_eq_nil_iff, List.filter_eq_nil_iff, List.mem_map]
  rintro _ ⟨x, _, rfl⟩
  simp [h]

theorem flush_ok (r : RouterId) (p : List (Bytes × Option Nat)) (s : Sender) :
    (s.flush r p).1.routers = s.routers ∧ ∃ q : List (Bytes × Option Nat), q.Sublist p ∧ (s.flush r p).2 = effects (q.map fun x => (r, x)) := by
  induction p generalizing s with
  | nil => exact ⟨rfl, [], List.Sublist.refl _, rfl⟩
  | cons x p ih =>
    obtain ⟨m, fb⟩ := x
    obtain ⟨h1, h2⟩ := hand_ok s r m fb
    obtain ⟨i1, q, iq, i2⟩ := ih (s.hand r m fb).1
    simp only [Sender.flush]
    refine ⟨i1.trans h1, ?_⟩
    rcases h2 with h2 | h2
    · exact ⟨q, iq.trans (List.sublist_cons_self ..), by rw [i2, h2]; rfl⟩
    · exact ⟨(m, fb) :: q, iq.cons_cons _, by rw [i2, h2, ← effects_append]; rfl⟩

theorem step_ok (s : Sender) (o : SendOp) :
    ∃ ds, (s.step false o).2 = effects ds ∧
      ∀ r, (handedTo r ds ++ (s.step false o).1.waiting r).Sublist (s.waiting r ++ sentTo r [(o, (s.step false o).2)]) := by
  have nil : ∀ r, handedTo r [] = [] := fun _ => rfl
  cases o with
  | send t m fb =>
    have hsent : ∀ r es, sentTo r [(SendOp.send t m fb, es)] = if t = r then [(m, fb)] else [] := by
      intro r es; by_cases h : t = r <;> simp [sentTo, h]
    simp only [Sender.step, Sender.send]
    cases hr : s.routers t with
    | none =>
      dsimp only
      by_cases hl : t = s.localId
      · rw [if_pos hl]
        exact ⟨[], rfl, fun r => by simp [nil]⟩
      · rw [if_neg hl]
        refine ⟨[], rfl, fun r => ?_⟩
        rw [nil, hsent, List.nil_append]
        have hc : (s.connect t).routers = s.routers := by unfold Sender.connect; split <;> rfl
        by_cases h : t = r
        · subst h; simp [Sender.waiting, put_same, hr]
        · simp [Sender.waiting, put_ne _ _ (Ne.symm h), hc, h]
    | some st =>
      cases st with
      | connected =>
        dsimp only
        obtain ⟨h1, h2⟩ := hand_ok s t m fb
        rcases h2 with h2 | h2
        · refine ⟨[], h2, fun r => ?_⟩
          rw [nil, List.nil_append, Sender.waiting, h1]
          exact List.sublist_append_left ..
        · refine ⟨_, h2, fun r => ?_⟩
          rw [hsent]
          by_cases h : t = r
          · subst h; simp [Sender.waiting, h1, hr, handedTo]
          · simp [Sender.waiting, h1, handedTo, h]
      | dialing p =>
        dsimp only
        refine ⟨[], rfl, fun r => ?_⟩
        rw [nil, List.nil_append, hsent]
        by_cases h : t = r
        · subst h; simp [Sender.waiting, put_same, hr]
        · simp [Sender.waiting, put_ne _ _ (Ne.symm h), h]
  | established t cap =>
    simp only [Sender.step, Sender.established]
    cases hr : s.routers t with
    | none =>
      dsimp only
      refine ⟨[], rfl, fun r => ?_⟩
      rw [nil, List.nil_append]
      by_cases h : r = t
      · subst h; simp [Sender.waiting, put_same]
      · simp [Sender.waiting, put_ne _ _ h]
    | some st =>
      cases st with
      | connected =>
        dsimp only
        exact ⟨[], rfl, fun r => by rw [nil, List.nil_append]; exact List.sublist_append_left ..⟩
      | dialing p =>
        dsimp only
        obtain ⟨h1, q, hq, h2⟩ := flush_ok t p
          { s with links := put s.links t (some { cap }), routers := put s.routers t none }
        refine ⟨_, h2, fun r => ?_⟩
        by_cases h : r = t
        · subst h
          simp [handedTo_same, Sender.waiting, put_same, hr]
          exact hq.trans (List.sublist_append_left ..)
        · rw [handedTo_other (Ne.symm h)]
          simp [Sender.waiting, put_ne _ _ h, h1]
  | closed t =>
    refine ⟨[], rfl, fun r => ?_⟩
    rw [nil, List.nil_append]
    by_cases h : r = t
    · subst h; simp [Sender.step, Sender.waiting, put_same]
    · simp [Sender.step, Sender.waiting, put_ne _ _ h]
  | failed t =>
    refine ⟨[], rfl, fun r => ?_⟩
    rw [nil, List.nil_append]
    by_cases h : r = t
    · subst h; simp [Sender.step, Sender.waiting, put_same]
    · simp [Sender.step, Sender.waiting, put_ne _ _ h]
  | take t => exact ⟨[], rfl, fun r => by rw [nil, List.nil_append]; exact List.sublist_append_left ..⟩
  | gone t => exact ⟨[], rfl, fun r => by rw [nil, List.nil_append]; exact List.sublist_append_left ..⟩
  | takeCmd => exact ⟨[], rfl, fun r => by rw [nil, List.nil_append]; exact List.sublist_append_left ..⟩

/-- Whatever happens, the messages handed to the sessions of a router are some of those that were to be sent to that router, in the
order in which they were to be sent and each at most once; and a message's feedback channel is signalled when the message was
handed over, and not otherwise. -/
theorem C95_sent_in_order_and_confirmed_when_handed_over (localId : RouterId) (cmds : Chan RouterId) (ops : List SendOp) :
    let log := (Sender.run false { localId, cmds } ops).2
    ∃ ds, allEffects log = effects ds ∧ ∀ r, (handedTo r ds).Sublist (sentTo r log) := by
  intro log
  suffices H : ∃ ds, allEffects log = effects ds ∧
      ∀ r, (handedTo r ds ++ (Sender.run false { localId, cmds } ops).1.waiting r).Sublist (sentTo r log) by
    obtain ⟨ds, h1, h2⟩ := H
    exact ⟨ds, h1, fun r => (List.sublist_append_left ..).trans (h2 r)⟩
  show ∃ ds, allEffects (Sender.run false { localId, cmds } ops).2 = effects ds ∧
      ∀ r, (handedTo r ds ++ (Sender.run false { localId, cmds } ops).1.waiting r).Sublist
        (sentTo r (Sender.run false { localId, cmds } ops).2)
  clear log
  induction ops using List.reverseRecOn with
  | nil => exact ⟨[], rfl, fun r => by simp [Sender.run, handedTo, Sender.waiting]⟩
  | append_singleton ops o ih =>
    rw [sender_run_append]
    simp only [Sender.run]
    obtain ⟨ds, i1, i2⟩ := ih
    obtain ⟨ds', j1, j2⟩ := step_ok (Sender.run false { localId, cmds } ops).1 o
    refine ⟨ds ++ ds', ?_, fun r => ?_⟩
    · rw [allEffects_append, i1, effects_append, ← j1]; simp [allEffects]
    · rw [handedTo_append, sentTo_append, List.append_assoc]
      refine ((List.Sublist.refl _).append (j2 r)).trans ?_
      rw [← List.append_assoc]
      exact (i2 r).append (List.Sublist.refl _)

/-- Events that end or renew what the manager knows of router `r`. -/
def renews (r : RouterId) : SendOp → Bool
  | .established s _ | .closed s | .failed s | .gone s => s == r
  | _ => false

/-- Phase 1: `r` is being dialled. -/
def Phase1 (r : RouterId) (s : Sender) (sent : List (Bytes × Option Nat)) : Prop :=
  r ≠ s.localId ∧ ((s.routers r = none ∧ sent = []) ∨ s.routers r = some (.dialing sent))

/-- Phase 2: `r` is connected. -/
def Phase2 (r : RouterId) (cap : Nat) (s : Sender) (sent : List (Bytes × Option Nat)) : Prop :=
  s.routers r = some .connected ∧ ∃ c, s.links r = some c ∧ c.closed = false ∧ c.cap = cap ∧ c.queue.length ≤ sent.length

theorem connect_keeps (s : Sender) (r : RouterId) :
    (s.connect r).routers = s.routers ∧ (s.connect r).links = s.links ∧ (s.connect r).localId = s.localId := by
  unfold Sender.connect; split <;> exact ⟨rfl, rfl, rfl⟩

theorem hand_other (s : Sender) {r t : RouterId} (h : t ≠ r) (m : Bytes) (fb : Option Nat) :
    (s.hand t m fb).1.links r = s.links r ∧ (s.hand t m fb).1.localId = s.localId := by
  unfold Sender.hand
  cases s.links t with
  | none => exact ⟨rfl, rfl⟩
  | some c =>
    dsimp only
    generalize c.trySend m = x
    obtain ⟨c', res⟩ := x
    cases res <;> simp [put_ne _ _ (Ne.symm h)]

theorem flush_other {r t : RouterId} (h : t ≠ r) (p : List (Bytes × Option Nat)) (s : Sender) :
    (s.flush t p).1.links r = s.links r ∧ (s.flush t p).1.localId = s.localId := by
  induction p generalizing s with
  | nil => exact ⟨rfl, rfl⟩
  | cons x p ih =>
    obtain ⟨m, fb⟩ := x
    obtain ⟨h1, h2⟩ := hand_other s h m fb
    obtain ⟨i1, i2⟩ := ih (s.hand t m fb).1
    exact ⟨i1.trans h1, i2.trans h2⟩

/-- An operation that is not about `r` changes nothing for `r`. -/
theorem step_other (s : Sender) (r : RouterId) (o : SendOp) (h : ∀ m fb, o ≠ .send r m fb) (h' : renews r o = false) :
    ∃ ds, (s.step false o).2 = effects ds ∧ handedTo r ds = [] ∧ (s.step false o).1.routers r = s.routers r ∧
      (s.step false o).1.localId = s.localId ∧
      ((s.step false o).1.links r = s.links r ∨ (s.step false o).1.links r = (s.links r).map fun c => c.recv.1) := by
  cases o with
  | send t m fb =>
    have ht : t ≠ r := by rintro rfl; exact h m fb rfl
    simp only [Sender.step, Sender.send]
    cases hr : s.routers t with
    | none =>
      dsimp only
      by_cases hl : t = s.localId
      · rw [if_pos hl]; exact ⟨[], rfl, rfl, rfl, rfl, Or.inl rfl⟩
      · rw [if_neg hl]
        obtain ⟨c1, c2, c3⟩ := connect_keeps s t
        exact ⟨[], rfl, rfl, by simp [put_ne _ _ (Ne.symm ht), c1], c3, Or.inl (by simp [c2])⟩
    | some st =>
      cases st with
      | connected =>
        dsimp only
        obtain ⟨h1, h2⟩ := hand_ok s t m fb
        obtain ⟨g1, g2⟩ := hand_other s ht m fb
        rcases h2 with h2 | h2
        · exact ⟨_, h2, rfl, by rw [h1], g2, Or.inl g1⟩
        · exact ⟨_, h2, by simp [handedTo, ht], by rw [h1], g2, Or.inl g1⟩
      | dialing p => exact ⟨[], rfl, rfl, by simp [put_ne _ _ (Ne.symm ht)], rfl, Or.inl rfl⟩
  | established t cap =>
    have ht : t ≠ r := by simpa [renews] using h'
    simp only [Sender.step, Sender.established]
    cases hr : s.routers t with
    | none => exact ⟨[], rfl, rfl, by simp [put_ne _ _ (Ne.symm ht)], rfl, Or.inl (by simp [put_ne _ _ (Ne.symm ht)])⟩
    | some st =>
      cases st with
      | connected => exact ⟨[], rfl, rfl, rfl, rfl, Or.inl (by simp [put_ne _ _ (Ne.symm ht)])⟩
      | dialing p =>
        dsimp only
        obtain ⟨h1, q, hq, h2⟩ := flush_ok t p
          { s with links := put s.links t (some { cap }), routers := put s.routers t none }
        obtain ⟨g1, g2⟩ := flush_other ht p
          { s with links := put s.links t (some { cap }), routers := put s.routers t none }
        refine ⟨_, h2, handedTo_other ht q, ?_, g2, Or.inl ?_⟩
        · simp [put_ne _ _ (Ne.symm ht), h1]
        · rw [g1]; simp [put_ne _ _ (Ne.symm ht)]
  | closed t =>
    have ht : t ≠ r := by simpa [renews] using h'
    exact ⟨[], rfl, rfl, put_ne _ _ (Ne.symm ht), rfl, Or.inl (put_ne _ _ (Ne.symm ht))⟩
  | failed t =>
    have ht : t ≠ r := by simpa [renews] using h'
    exact ⟨[], rfl, rfl, put_ne _ _ (Ne.symm ht), rfl, Or.inl rfl⟩
  | take t =>
    refine ⟨[], rfl, rfl, rfl, rfl, ?_⟩
    by_cases ht : t = r
    · subst ht; exact Or.inr (put_same ..)
    · exact Or.inl (put_ne _ _ (Ne.symm ht))
  | gone t =>
    have ht : t ≠ r := by simpa [renews] using h'
    exact ⟨[], rfl, rfl, rfl, rfl, Or.inl (put_ne _ _ (Ne.symm ht))⟩
  | takeCmd => exact ⟨[], rfl, rfl, rfl, rfl, Or.inl rfl⟩

theorem sentTo_other {r : RouterId} {o : SendOp} (h : ∀ m fb, o ≠ .send r m fb) (es : List Effect) : sentTo r [(o, es)] = [] := by
  cases o with
  | send t m fb =>
    have ht : t ≠ r := by rintro rfl; exact h m fb rfl
    simp [sentTo, ht]
  | _ => simp [sentTo]

theorem phase1_run (r : RouterId) (ops : List SendOp) (s : Sender) (sent : List (Bytes × Option Nat)) (h : Phase1 r s sent)
    (hops : ∀ o ∈ ops, renews r o = false) :
    Phase1 r (s.run false ops).1 (sent ++ sentTo r (s.run false ops).2) ∧
      ∃ ds, allEffects (s.run false ops).2 = effects ds ∧ handedTo r ds = [] := by
  induction ops generalizing s sent with
  | nil => simp [Sender.run, sentTo, allEffects]; exact ⟨h, [], rfl, rfl⟩
  | cons o ops ih =>
    have ho := hops o (by simp)
    have hops' : ∀ o ∈ ops, renews r o = false := fun o h => hops o (by simp [h])
    have key : Phase1 r (s.step false o).1 (sent ++ sentTo r [(o, (s.step false o).2)]) ∧
        ∃ ds, (s.step false o).2 = effects ds ∧ handedTo r ds = [] := by
      by_cases hs : ∃ m fb, o = .send r m fb
      · obtain ⟨m, fb, rfl⟩ := hs
        obtain ⟨hl, h⟩ := h
        simp only [Sender.step, Sender.send]
        rcases h with ⟨h1, h2⟩ | h1
        · rw [h1]
          dsimp only
          rw [if_neg hl]
          obtain ⟨c1, c2, c3⟩ := connect_keeps s r
          refine ⟨⟨by simpa [c3] using hl, Or.inr ?_⟩, [], rfl, rfl⟩
          simp [put_same, h2, sentTo]
        · rw [h1]
          refine ⟨⟨hl, Or.inr ?_⟩, [], rfl, rfl⟩
          simp [put_same, sentTo]
      · have hs : ∀ m fb, o ≠ .send r m fb := fun m fb h => hs ⟨m, fb, h⟩
        obtain ⟨ds, g1, g2, g3, g4, _⟩ := step_other s r o hs ho
        rw [sentTo_other hs, List.append_nil]
        refine ⟨?_, ds, g1, g2⟩
        unfold Phase1
        rw [g3, g4]
        exact h
    obtain ⟨k1, ds, k2, k3⟩ := key
    obtain ⟨i1, ds', i2, i3⟩ := ih _ _ k1 hops'
    simp only [Sender.run]
    refine ⟨?_, ds ++ ds', ?_, ?_⟩
    · have : ∀ l, sentTo r ((o, (s.step false o).2) :: l) = sentTo r [(o, (s.step false o).2)] ++ sentTo r l :=
        fun l => sentTo_append r [_] l
      rw [this, ← List.append_assoc]; exact i1
    · rw [effects_append, ← k2, ← i2]; simp [allEffects]
    · rw [handedTo_append, k3, i3]; rfl

theorem trySend_queue' {α} (c : Chan α) (a : α) :
    (c.trySend a).1.queue = if c.closed = true ∨ c.cap ≤ c.queue.length then c.queue else c.queue ++ [a] := by
  unfold Chan.trySend
  by_cases h1 : c.closed = true
  · rw [if_pos h1, if_pos (Or.inl h1)]
  · rw [if_neg h1]
    by_cases h2 : c.queue.length < c.cap
    · rw [if_pos h2, if_neg (by rintro (h | h); exact h1 h; omega)]
    · rw [if_neg h2, if_pos (Or.inr (by omega))]

theorem trySend_room {c : Chan Bytes} (m : Bytes) (h1 : c.closed = false) (h2 : c.queue.length < c.cap) :
    c.trySend m = ({ c with queue := c.queue ++ [m] }, .ok) := by
  unfold Chan.trySend; simp [h1, h2]

theorem flush_room (r : RouterId) (p : List (Bytes × Option Nat)) (s : Sender) {c : Chan Bytes} (hl : s.links r = some c)
    (hc : c.closed = false) (hroom : c.queue.length + p.length ≤ c.cap) :
    (s.flush r p).2 = effects (p.map fun x => (r, x)) ∧
      (s.flush r p).1.links r = some { c with queue := c.queue ++ p.map (·.1) } := by
  induction p generalizing s c with
  | nil => simp [Sender.flush, effects, hl]
  | cons x p ih =>
    obtain ⟨m, fb⟩ := x
    simp only [List.length_cons] at hroom
    have e : s.hand r m fb = ({ s with links := put s.links r (some { c with queue := c.queue ++ [m] }) }, effects [(r, m, fb)]) := by
      unfold Sender.hand
      rw [hl]
      simp only [trySend_room m hc (by omega)]
      simp [effects]
    obtain ⟨i1, i2⟩ := ih { s with links := put s.links r (some { c with queue := c.queue ++ [m] }) }
      (c := { c with queue := c.queue ++ [m] }) (put_same ..) hc (by simp; omega)
    simp only [Sender.flush, e]
    refine ⟨?_, ?_⟩
    · rw [i1, ← effects_append]; rfl
    · rw [i2]; simp

theorem phase2_run (r : RouterId) (cap : Nat) (ops : List SendOp) (s : Sender) (sent : List (Bytes × Option Nat))
    (h : Phase2 r cap s sent) (hops : ∀ o ∈ ops, renews r o = false)
    (hroom : (sent ++ sentTo r (s.run false ops).2).length ≤ cap) :
    ∃ ds, allEffects (s.run false ops).2 = effects ds ∧ handedTo r ds = sentTo r (s.run false ops).2 := by
  induction ops generalizing s sent with
  | nil => exact ⟨[], rfl, rfl⟩
  | cons o ops ih =>
    have ho := hops o (by simp)
    have hops' : ∀ o ∈ ops, renews r o = false := fun o h => hops o (by simp [h])
    have split : ∀ l, sentTo r ((o, (s.step false o).2) :: l) = sentTo r [(o, (s.step false o).2)] ++ sentTo r l :=
      fun l => sentTo_append r [_] l
    simp only [Sender.run] at hroom ⊢
    rw [split] at hroom ⊢
    have key : Phase2 r cap (s.step false o).1 (sent ++ sentTo r [(o, (s.step false o).2)]) ∧
        ∃ ds, (s.step false o).2 = effects ds ∧ handedTo r ds = sentTo r [(o, (s.step false o).2)] := by
      obtain ⟨h1, c, h2, h3, h4, h5⟩ := h
      by_cases hs : ∃ m fb, o = .send r m fb
      · obtain ⟨m, fb, rfl⟩ := hs
        have hsent : ∀ es, sentTo r [(SendOp.send r m fb, es)] = [(m, fb)] := fun es => by simp [sentTo]
        rw [hsent] at hroom
        have hlt : c.queue.length < c.cap := by
          rw [h4]; simp at hroom; omega
        have e : s.step false (.send r m fb) =
            ({ s with links := put s.links r (some { c with queue := c.queue ++ [m] }) }, effects [(r, m, fb)]) := by
          simp only [Sender.step, Sender.send, h1, Sender.hand, h2, trySend_room m h3 hlt]
          simp [effects]
        rw [hsent, e]
        refine ⟨⟨h1, _, put_same .., h3, h4, ?_⟩, _, rfl, by simp [handedTo]⟩
        simp; omega
      · have hs : ∀ m fb, o ≠ .send r m fb := fun m fb h => hs ⟨m, fb, h⟩
        obtain ⟨ds, g1, g2, g3, g4, g5⟩ := step_other s r o hs ho
        rw [sentTo_other hs, List.append_nil]
        refine ⟨⟨g3.trans h1, ?_⟩, ds, g1, g2⟩
        rcases g5 with g5 | g5
        · exact ⟨c, g5.trans h2, h3, h4, h5⟩
        · refine ⟨c.recv.1, by rw [g5, h2]; rfl, ?_, ?_, ?_⟩ <;> unfold Chan.recv <;> split
          · exact h3
          · exact h3
          · exact h4
          · exact h4
          · exact h5
          · rename_i e; rw [e] at h5; simp at h5 ⊢; omega
    obtain ⟨k1, ds, k2, k3⟩ := key
    obtain ⟨ds', i2, i3⟩ := ih _ _ k1 hops' (by rw [List.append_assoc]; exact hroom)
    refine ⟨ds ++ ds', ?_, ?_⟩
    · rw [effects_append, ← k2, ← i2]; simp [allEffects]
    · rw [handedTo_append, k3, i3]

/-- Messages for a router that is not connected are kept while it is dialled; when the connection comes up they are handed to the
session in order, followed by the messages sent after that, and none is lost, unless more messages are sent than the session's
channel holds. -/
theorem C96_messages_kept_while_dialling (s : Sender) (r : RouterId) (cap : Nat) (before after : List SendOp)
    (hr : s.routers r = none) (hl : r ≠ s.localId) (hb : ∀ o ∈ before, renews r o = false) (ha : ∀ o ∈ after, renews r o = false) :
    let log := (s.run false (before ++ .established r cap :: after)).2
    (sentTo r log).length ≤ cap →
    ∃ ds, allEffects log = effects ds ∧ handedTo r ds = sentTo r log := by
  intro log hroom
  obtain ⟨p1, ds1, e1, h1⟩ := phase1_run r before s [] ⟨hl, Or.inl ⟨hr, rfl⟩⟩ hb
  rw [List.nil_append] at p1
  have hlog : log = (s.run false before).2 ++
      (.established r cap, ((s.run false before).1.step false (.established r cap)).2) ::
        (((s.run false before).1.step false (.established r cap)).1.run false after).2 := by
    show (s.run false (before ++ .established r cap :: after)).2 = _
    rw [sender_run_append]; rfl
  rw [hlog] at hroom ⊢
  generalize s.run false before = sb at *
  have hsent : sentTo r (sb.2 ++ (.established r cap, (sb.1.step false (.established r cap)).2) ::
        ((sb.1.step false (.established r cap)).1.run false after).2) =
      sentTo r sb.2 ++ sentTo r ((sb.1.step false (.established r cap)).1.run false after).2 := by
    rw [sentTo_append]; simp [sentTo]
  rw [hsent] at hroom ⊢
  have key : Phase2 r cap (sb.1.step false (.established r cap)).1 (sentTo r sb.2) ∧
      (sb.1.step false (.established r cap)).2 = effects ((sentTo r sb.2).map fun x => (r, x)) := by
    simp only [Sender.step, Sender.established]
    rcases p1.2 with ⟨h1, h2⟩ | h1
    · rw [h1, h2]
      dsimp only
      exact ⟨⟨put_same .., { cap }, put_same .., rfl, rfl, by simp⟩, rfl⟩
    · rw [h1]
      dsimp only
      rw [List.length_append] at hroom
      obtain ⟨f1, f2⟩ := flush_room r (sentTo r sb.2)
        { sb.1 with links := put sb.1.links r (some { cap }), routers := put sb.1.routers r none } (c := { cap }) (put_same ..) rfl
        (by simp; omega)
      refine ⟨⟨put_same .., _, f2, rfl, rfl, by simp⟩, f1⟩
  obtain ⟨k1, k2⟩ := key
  obtain ⟨ds2, e2, h2⟩ := phase2_run r cap after _ _ k1 ha hroom
  refine ⟨ds1 ++ ((sentTo r sb.2).map fun x => (r, x)) ++ ds2, ?_, ?_⟩
  · rw [effects_append, effects_append, ← e1, ← k2, ← e2]; simp [allEffects]
  · rw [handedTo_append, handedTo_append, h1, h2, handedTo_same]; rfl

/-- The first message for a router that is not connected makes the transport manager dial it, if there is room for the command. -/
theorem C96_first_message_dials (s : Sender) (r : RouterId) (m : Bytes) (fb : Option Nat)
    (hr : s.routers r = none) (hk : s.links r = none) (hl : r ≠ s.localId) (hc : s.cmds.closed = false)
    (hroom : s.cmds.queue.length < s.cmds.cap) :
    (s.step false (.send r m fb)).1.cmds.queue = s.cmds.queue ++ [r] := by
  simp [Sender.step, Sender.send, hr, hl, Sender.connect, hk, Chan.trySend, hc, hroom]

example : (Sender.run false { localId := [0], cmds := { cap := 4 } }
    [.send [1] [10] (some 7), .send [2] [20] none, .send [1] [11] none, .established [1] 3, .send [1] [12] (some 8),
      .send [1] [13] none, .failed [2]]).2.map (·.2) =
    [[], [], [], [.handed [1] [10], .signal 7, .handed [1] [11]], [.handed [1] [12], .signal 8], [], []] := by decide +kernel

/-- The state after the connection was established and the failure reported. -/
def forgot (localId r : RouterId) (cmds : Chan RouterId) (cap : Nat) : Sender where
  localId := localId
  cmds := cmds
  links := put (fun _ => none) r (some { cap })
  routers := put (put (fun _ => none) r (some .connected)) r none

/-- C97, that messages to a router with an open connection are sent, fails: if a failure is reported while the connection is open
(as when a second dial to a connected router fails), then until the next event about the router, no message to it is sent, the
transport manager is not asked to dial it, and nothing is reported, although the connection has room for every message. -/
theorem C97_connection_forgotten_violated (localId r : RouterId) (cmds : Chan RouterId) (cap : Nat) (hl : r ≠ localId)
    (hc : r ∉ cmds.queue) (ops : List SendOp) (hops : ∀ o ∈ ops, renews r o = false) :
    let q := Sender.run false { localId, cmds } (.established r cap :: .failed r :: ops)
    ((q.1.links r).map (·.closed) = some false ∧ (q.1.links r).map (·.queue) = some [] ∧ (q.1.links r).map (·.cap) = some cap) ∧
    r ∉ q.1.cmds.queue ∧ ∀ m, .handed r m ∉ allEffects q.2 := by
  intro q
  have e : q = (((forgot localId r cmds cap).run false ops).1,
      (.established r cap, []) :: (.failed r, []) :: ((forgot localId r cmds cap).run false ops).2) := rfl
  rw [e]
  clear e q
  generalize hs : forgot localId r cmds cap = s
  obtain ⟨p1, ds, e1, h1⟩ := phase1_run r ops s [] ⟨by rw [← hs]; exact hl, Or.inl ⟨by rw [← hs]; exact put_same .., rfl⟩⟩ hops
  have hno : ∀ m, Effect.handed r m ∉ allEffects (s.run false ops).2 := by
    intro m hm
    rw [e1, effects, List.mem_flatMap] at hm
    obtain ⟨d, hd, hm⟩ := hm
    have : d ∈ ds.filter (·.1 == r) := by
      rw [List.mem_filter]
      refine ⟨hd, ?_⟩
      rw [List.mem_cons] at hm
      rcases hm with hm | hm
      · simp at hm; simp [hm.1]
      · rw [Option.mem_toList] at hm
        cases hd2 : d.2.2 <;> simp [hd2] at hm
    have : d.2 ∈ handedTo r ds := List.mem_map_of_mem this
    rw [h1] at this
    cases this
  refine ⟨?_, ?_, by simpa [allEffects] using hno⟩
  · clear h1 e1 p1 hno
    have : s.links r = some { cap } := by rw [← hs]; simp [forgot, put_same]
    have hrt : ∃ x, (s.routers r = none ∧ x = []) ∨ s.routers r = some (.dialing x) := ⟨[], Or.inl ⟨by rw [← hs]; exact put_same .., rfl⟩⟩
    clear hs
    induction ops generalizing s with
    | nil => simp [Sender.run, this]
    | cons o ops ih =>
      have ho := hops o (by simp)
      refine ih (fun o h => hops o (by simp [h])) (s.step false o).1 ?_ ?_
      · by_cases hsd : ∃ m fb, o = .send r m fb
        · obtain ⟨m, fb, rfl⟩ := hsd
          obtain ⟨x, ⟨h, _⟩ | h⟩ := hrt
          · simp only [Sender.step, Sender.send, h]
            split
            · exact this
            · exact (congrFun (connect_keeps s r).2.1 r).trans this
          · simp only [Sender.step, Sender.send, h]; exact this
        · obtain ⟨_, _, _, _, _, g⟩ := step_other s r o (fun m fb h => hsd ⟨m, fb, h⟩) ho
          rcases g with g | g
          · exact g.trans this
          · rw [g, this]; rfl
      · by_cases hsd : ∃ m fb, o = .send r m fb
        · obtain ⟨m, fb, rfl⟩ := hsd
          obtain ⟨x, ⟨h, _⟩ | h⟩ := hrt
          · simp only [Sender.step, Sender.send, h]
            split
            · exact ⟨[], Or.inl ⟨h, rfl⟩⟩
            · exact ⟨_, Or.inr (put_same ..)⟩
          · simp only [Sender.step, Sender.send, h]
            exact ⟨_, Or.inr (put_same ..)⟩
        · obtain ⟨_, _, _, g, _⟩ := step_other s r o (fun m fb h => hsd ⟨m, fb, h⟩) ho
          rw [g]; exact hrt
  · clear h1 e1 p1 hno
    have h1 : (s.links r).isSome := by rw [← hs]; simp [forgot, put_same]
    have h2 : r ∉ s.cmds.queue := by rw [← hs]; exact hc
    clear hs
    induction ops generalizing s with
    | nil => exact h2
    | cons o ops ih =>
      have ho := hops o (by simp)
      refine ih (fun o h => hops o (by simp [h])) (s.step false o).1 ?_ ?_
      · by_cases hsd : ∃ m fb, o = .send r m fb
        · obtain ⟨m, fb, rfl⟩ := hsd
          simp only [Sender.step, Sender.send]
          cases h : s.routers r with
          | none =>
            dsimp only
            split
            · exact h1
            · exact (congrArg Option.isSome (congrFun (connect_keeps s r).2.1 r)).trans h1
          | some st =>
            cases st with
            | connected =>
              dsimp only
              unfold Sender.hand
              cases hk : s.links r with
              | none => rw [hk] at h1; cases h1
              | some c =>
                dsimp only
                split
                · simp [put_same]
                · exact h1
            | dialing p => exact h1
        · obtain ⟨_, _, _, _, _, g⟩ := step_other s r o (fun m fb h => hsd ⟨m, fb, h⟩) ho
          rcases g with g | g
          · rw [g]; exact h1
          · rw [g]; simpa using h1
      · have hconn : ∀ t, r ∉ (s.connect t).cmds.queue := by
          intro t
          unfold Sender.connect
          split
          · exact h2
          · rename_i hn
            have ht : t ≠ r := by rintro rfl; exact hn h1
            simp only [trySend_queue']
            split
            · exact h2
            · simp [h2, Ne.symm ht]
        have hhand : ∀ (s : Sender) t m fb, (s.hand t m fb).1.cmds = s.cmds := by
          intro s t m fb
          unfold Sender.hand
          cases s.links t with
          | none => rfl
          | some c => dsimp only; split <;> rfl
        have hflush : ∀ t p (s : Sender), (s.flush t p).1.cmds = s.cmds := by
          intro t p
          induction p with
          | nil => intro s; rfl
          | cons x p ih => intro s; exact (ih _).trans (hhand ..)
        cases o with
        | send t m fb =>
          simp only [Sender.step, Sender.send]
          cases h : s.routers t with
          | none =>
            dsimp only
            split
            · exact h2
            · exact hconn t
          | some st =>
            cases st with
            | connected => dsimp only; rw [hhand]; exact h2
            | dialing p => exact h2
        | established t cap =>
          simp only [Sender.step, Sender.established]
          cases h : s.routers t with
          | none => exact h2
          | some st =>
            cases st with
            | connected => exact h2
            | dialing p => dsimp only; rw [hflush]; exact h2
        | closed t => exact h2
        | failed t => exact h2
        | take t => exact h2
        | gone t => exact h2
        | takeCmd =>
          simp only [Sender.step, Chan.recv]
          split
          · exact h2
          · rename_i e; rw [e] at h2; exact fun h => h2 (List.mem_cons_of_mem _ h)

/-! ## C98, C99: received messages -/

/-- Where the messages a peer sends end up, by type: tunnel messages and build requests are routed, Database and DeliveryStatus
messages go to the network database. -/
def routable (m : Message) : Bool := [18, 19, 23, 25, 26, 21].contains m.type.code
def forDatabase (m : Message) : Bool := [1, 2, 3, 10].contains m.type.code

/-- A received message that is not a garlic message is routed, given to the network database, or (if a peer has no business sending
it) dropped, in a build without debug assertions. -/
theorem C98_received_message_partial (decrypt : Message → Option (List Instr)) (fuel : Nat) (m : Message) (hm : m.type ≠ .garlic) :
    onMessage false decrypt (fuel + 1) m =
      if routable m then [.routed m] else if forDatabase m then [.netdb m] else [.dropped] := by
  unfold onMessage routable forDatabase
  cases h : m.type <;> first | (exact absurd h hm) | rfl

/-- With debug assertions, any peer can stop the router: a `Data`, `TunnelBuildReply` or `VariableTunnelBuildReply` message
panics, whatever it contains. -/
theorem C98_peer_message_panics_violated (decrypt : Message → Option (List Instr)) (fuel : Nat) (m : Message)
    (hm : m.type = .data ∨ m.type = .tunnelBuildReply ∨ m.type = .variableTunnelBuildReply) :
    onMessage true decrypt (fuel + 1) m = [.panic] := by
  rcases hm with h | h | h <;> simp [onMessage, h]

/-- A message with a tunnel message that was seen before is routed again: nothing filters duplicates. -/
theorem C98_duplicates_routed_violated (chk : Bool) (decrypt : Message → Option (List Instr)) (fuel : Nat) (m : Message)
    (hm : m.type = .tunnelData) (n : Nat) :
    (List.replicate n m).flatMap (onMessage chk decrypt (fuel + 1)) = List.replicate n (.routed m) := by
  have : onMessage chk decrypt (fuel + 1) m = [.routed m] := by simp [onMessage, hm]
  induction n with
  | zero => rfl
  | succ n ih => rw [List.replicate_succ, List.flatMap_cons, ih, this]; rfl

/-- A clove addressed to another router, or to a tunnel of another router, is sent there. -/
theorem C99_clove_for_other_router (decrypt : Message → Option (List Instr)) (fuel : Nat) (m : Message) (hm : m.type = .garlic)
    (a b : List Instr) (r : RouterId) (bytes : Bytes) (i : Instr) (hi : i = .router r bytes ∨ ∃ t, i = .tunnel r t bytes)
    (hd : decrypt m = some (a ++ i :: b)) :
    .sent r bytes ∈ onMessage false decrypt (fuel + 1) m := by
  simp only [onMessage, hm, hd, List.mem_flatMap]
  refine ⟨i, by simp, ?_⟩
  rcases hi with rfl | ⟨t, rfl⟩ <;> simp

/-- The property that cloves are delivered fails for cloves addressed to this router or to a tunnel of this router (as when this
router is also the gateway of the tunnel): such a message is handed to the sender, who has no connection to itself and drops it
(or panics, with debug assertions). -/
theorem C99_clove_for_this_router_violated (chk : Bool) (localId : RouterId) (cmds : Chan RouterId) (ops : List SendOp)
    (hops : ∀ o ∈ ops, ∀ cap, o ≠ .established localId cap) (bytes : Bytes) :
    let s := (Sender.run chk { localId, cmds } ops).1
    s.step chk (.send localId bytes none) = (s, if chk then [.panic] else []) := by
  intro s
  suffices h : s.routers localId = none ∧ s.localId = localId by
    simp [Sender.step, Sender.send, h.1, h.2]
  show ((Sender.run chk { localId, cmds } ops).1.routers localId = none) ∧ (Sender.run chk { localId, cmds } ops).1.localId = localId
  clear s
  have hhand : ∀ (s : Sender) t m fb, (s.hand t m fb).1.localId = s.localId := by
    intro s t m fb
    unfold Sender.hand
    cases s.links t with
    | none => rfl
    | some c => dsimp only; split <;> rfl
  have hflush : ∀ t p (s : Sender), (s.flush t p).1.localId = s.localId := by
    intro t p
    induction p with
    | nil => intro s; rfl
    | cons x p ih => intro s; exact (ih _).trans (hhand ..)
  induction ops using List.reverseRecOn with
  | nil => exact ⟨rfl, rfl⟩
  | append_singleton ops o ih =>
    rw [sender_run_append]
    simp only [Sender.run]
    have ho := hops o (by simp)
    obtain ⟨h1, h2⟩ := ih (fun o h => hops o (by simp [h]))
    generalize (Sender.run chk { localId, cmds } ops).1 = s at *
    cases o with
    | send t m fb =>
      simp only [Sender.step, Sender.send]
      cases h : s.routers t with
      | none =>
        dsimp only
        by_cases ht : t = s.localId
        · rw [if_pos ht]; exact ⟨h1, h2⟩
        · rw [if_neg ht]
          obtain ⟨c1, c2, c3⟩ := connect_keeps s t
          exact ⟨by simp [put_ne _ _ (fun e => ht (h2.trans e).symm), c1, h1], c3.trans h2⟩
      | some st =>
        cases st with
        | connected => exact ⟨by rw [(hand_ok s t m fb).1]; exact h1, (hhand ..).trans h2⟩
        | dialing p =>
          have ht : localId ≠ t := by rintro rfl; rw [h1] at h; cases h
          exact ⟨by simp [put_ne _ _ ht, h1], h2⟩
    | established t cap =>
      have ht : localId ≠ t := by rintro rfl; exact ho cap rfl
      simp only [Sender.step, Sender.established]
      cases h : s.routers t with
      | none => exact ⟨by simp [put_ne _ _ ht, h1], h2⟩
      | some st =>
        cases st with
        | connected => exact ⟨h1, h2⟩
        | dialing p =>
          dsimp only
          obtain ⟨g1, _⟩ := flush_ok t p { s with links := put s.links t (some { cap }), routers := put s.routers t none }
          refine ⟨?_, (hflush ..).trans h2⟩
          rw [put_ne _ _ ht, g1]
          simp [put_ne _ _ ht, h1]
    | closed t =>
      refine ⟨?_, h2⟩
      by_cases ht : localId = t
      · subst ht; exact put_same ..
      · exact (put_ne _ _ ht).trans h1
    | failed t =>
      refine ⟨?_, h2⟩
      by_cases ht : localId = t
      · subst ht; exact put_same ..
      · exact (put_ne _ _ ht).trans h1
    | take t => exact ⟨h1, h2⟩
    | gone t => exact ⟨h1, h2⟩
    | takeCmd => exact ⟨h1, h2⟩

example : onMessage false (fun _ => some [.router [9] [1], .localMsg ⟨.deliveryStatus, 1, 0, []⟩, .tunnel [8] 5 [2]]) 2
    ⟨.garlic, 0, 0, []⟩ = [.sent [9] [1], .netdb ⟨.deliveryStatus, 1, 0, []⟩, .sent [8] [2]] := by decide +kernel

/-! ## C100: sending through the routing table -/

/-- A message that fits the short format. -/
def Fits (m : Message) : Prop :=
  m.id < 2 ^ 32 ∧ m.expiration / 1000000000 < 2 ^ 32 ∧ m.payload ≠ [] ∧ m.payload.length ≤ 65526

/-- The message, as the short format keeps it: its expiration in whole seconds. -/
def onWire (m : Message) : Message := { m with expiration := m.expiration / 1000000000 * 1000000000 }

/-- Tunnel messages and build requests: the types the routing table routes itself when they are for this router. -/
def tunnelOrBuild (m : Message) : Bool := [18, 19, 23, 25].contains m.type.code

theorem parse_onWire {m : Message} (h : Fits m) : Message.parseShort m.serializeShort = some (onWire m, []) := by
  have := C16_short_header_roundtrip m [] h.1 h.2.1 h.2.2.1 h.2.2.2
  rwa [List.append_nil] at this

/-- Put into the manager's queue, if there is room. -/
def queued (t : Table) (k : Kind) : Table × RouteRes :=
  if t.manager.queue.length < t.manager.cap then ({ t with manager := { t.manager with queue := t.manager.queue ++ [k] } }, .ok)
  else (t, .full)

theorem toManager_open (t : Table) (k : Kind) (h : t.manager.closed = false) : t.toManager k = queued t k := by
  unfold Table.toManager Chan.trySend queued
  by_cases hr : t.manager.queue.length < t.manager.cap <;> simp [h, hr, SendRes.route]

/-- A message for this router is routed here if it is a tunnel message or a build request, and otherwise queued for the tunnel
manager, as the message it is; a message for another router is queued for that router with the bytes given. Nothing panics. -/
theorem C100_send_partial (t : Table) (chk : Bool) (r : RouterId) (m : Message) (hm : Fits m) (ho : t.manager.closed = false) :
    t.send chk r m.serializeShort =
      if r = t.localId then if tunnelOrBuild m then t.route chk (onWire m) else queued t (.internal (onWire m))
      else queued t (.external r m.serializeShort) := by
  unfold Table.send
  by_cases hr : r = t.localId
  · rw [if_pos hr, if_pos hr, Table.sendLocal, parse_onWire hm]
    have hty : (onWire m).type = m.type := rfl
    unfold tunnelOrBuild
    dsimp only
    rw [hty, toManager_open _ _ ho]
    cases m.type <;> rfl
  · rw [if_neg hr, if_neg hr, toManager_open _ _ ho]
    unfold queued
    by_cases hq : t.manager.queue.length < t.manager.cap
    · rw [if_pos hq]; simp [remoteErr]
    · rw [if_neg hq]; simp [remoteErr, parse_onWire hm]

/-- With a feedback channel, a message for another router is queued with it, and the channel is not signalled yet. -/
theorem C100_send_with_feedback_partial (t : Table) (chk : Bool) (r : RouterId) (m : Message) (fb : Nat) (hm : Fits m)
    (ho : t.manager.closed = false) (hr : r ≠ t.localId) :
    t.sendFb chk r m.serializeShort fb = queued t (.externalFb r m.serializeShort fb) := by
  unfold Table.sendFb
  rw [if_neg hr, toManager_open _ _ ho]
  unfold queued
  by_cases hq : t.manager.queue.length < t.manager.cap
  · rw [if_pos hq]; simp [remoteErr]
  · rw [if_neg hq]; simp [remoteErr, parse_onWire hm]

/-- The property that feedback means the message was taken over fails for messages to this router: the channel is signalled for
every message, also if the message is then lost because its tunnel is unknown or has no room. -/
theorem C100_local_feedback_violated (t : Table) (chk : Bool) (m : Message) (fb : Nat) (hm : Fits m) (hty : m.type = .tunnelGateway)
    (id : Nat) (hid : tunnelIdOf (onWire m) = some id) (hno : t.tunnels id = none) :
    let q := t.sendFb chk t.localId m.serializeShort fb
    q.1.signalled = t.signalled ++ [fb] ∧ q.2 = .notFound ∧ q.1.chans = t.chans ∧ q.1.manager = t.manager ∧
      q.1.transit = t.transit := by
  have e : t.sendFb chk t.localId m.serializeShort fb = ({ t with signalled := t.signalled ++ [fb] }, .notFound) := by
    unfold Table.sendFb
    rw [if_pos rfl, parse_onWire hm]
    simp only [Table.sendLocal, parse_onWire hm]
    have h' : (onWire m).type = .tunnelGateway := hty
    simp only [h', Table.route, Table.routeTunnel, hid, hno]
  rw [e]
  exact ⟨rfl, rfl, rfl, rfl, rfl⟩

/-- A message for an unknown tunnel of this router. -/
example : Fits ⟨.tunnelGateway, 1, 0, be 4 5 ++ be 2 1 ++ [0]⟩ ∧
    tunnelIdOf (onWire ⟨.tunnelGateway, 1, 0, be 4 5 ++ be 2 1 ++ [0]⟩) = some 5 := by
  refine ⟨⟨by decide, by decide, by decide, by decide⟩, by decide +kernel⟩

end Emissary.Transport
