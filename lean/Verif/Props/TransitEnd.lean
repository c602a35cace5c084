import Verif.Model.TransitEnd
import Verif.Props.TunnelTransit
import Verif.Props.TunnelDemo
/-!
# C197: a graceful shutdown lets the transit tunnels run out
-/
namespace Emissary.TBuild
open Emissary Emissary.I2np Emissary.Build Emissary.Prim
open Emissary.Ssu2 (Prims)

/-- The request to shut down. -/
def asks : TransitOp → Bool
  | .shutdown => true
  | _ => false

theorem Manager.step_inv (P : Prims) (E : Env) (chk : Bool) (s : Manager) (o : TransitOp) (asked : Bool)
    (h1 : s.t.shuttingDown = asked) (h2 : s.over = (asked && s.t.tunnels.isEmpty)) :
    (s.step P E chk o).t.shuttingDown = (asked || (!s.over && asks o)) ∧
    (s.step P E chk o).over =
      ((asked || (!s.over && asks o)) && (s.step P E chk o).t.tunnels.isEmpty) := by
  unfold Manager.step
  cases ho : s.over with
  | true =>
    rw [ho] at h2
    have h2' := h2.symm
    rw [Bool.and_eq_true] at h2'
    simp [h1, h2'.1, h2'.2, ho]
  | false =>
    rw [ho] at h2
    obtain ⟨-, s2, s3⟩ := step_cases P E chk s.t o
    simp only [Bool.false_eq_true, if_false]
    cases o with
    | shutdown => simp [Transit.step, asks]
    | ended i =>
      cases hg : s.t.tunnels[i]? with
      | none =>
        have hi := List.getElem?_eq_none_iff.1 hg
        simp only [Transit.step, hg]
        simp [h1, ← h2, Nat.not_lt.2 hi, asks]
      | some x =>
        obtain ⟨hi, -⟩ := List.getElem?_eq_some_iff.1 hg
        simp only [Transit.step, hg]
        simp [h1, hi, Bool.and_comm, asks]
    | message now m fb =>
      simp only [reduceCtorEq, or_false] at s3
      have e : (s.t.step P E chk (.message now m fb)).1.shuttingDown = asked := by
        rw [Bool.eq_iff_iff, s3, h1]
      refine ⟨by simp [e, asks], ?_⟩
      simp only [asks, Bool.and_false, Bool.or_false]
      rcases s2 with ⟨_, _, _, _, _, _, _, _, ha, x, hx, _⟩ | ⟨_, ⟨hx, _⟩ | ⟨i, x, he, _⟩⟩
      · rw [hx]; simp
      · rw [hx]; exact h2
      · cases he
    | table op =>
      simp only [Transit.step, asks, Bool.and_false, Bool.or_false]
      exact ⟨h1, h2⟩

theorem Manager.run_inv (P : Prims) (E : Env) (chk : Bool) (os : List TransitOp) : ∀ (s : Manager) (asked : Bool),
    s.t.shuttingDown = asked → s.over = (asked && s.t.tunnels.isEmpty) →
    (s.run P E chk os).over = ((asked || os.any asks) && (s.run P E chk os).t.tunnels.isEmpty) := by
  induction os with
  | nil => intro s asked _ h2; simpa [Manager.run] using h2
  | cons o os ih =>
    intro s asked h1 h2
    obtain ⟨a, b⟩ := s.step_inv P E chk o asked h1 h2
    have := ih _ _ a b
    show (Manager.run P E chk (s.step P E chk o) os).over = (_ && (Manager.run P E chk (s.step P E chk o) os).t.tunnels.isEmpty)
    rw [this]
    cases ho : s.over with
    | false =>
      simp [List.any_cons, Bool.or_assoc]
    | true =>
      rw [ho] at h2
      have h2' := h2.symm
      rw [Bool.and_eq_true] at h2'
      simp [h2'.1]

/-- **C197**: from the start of the router, the transit manager is done, and says so to the router, exactly when it has been asked
to shut down and no transit tunnel is left; until then it keeps its tunnels. Before it is asked it is never done, and once asked it
is done as soon as its last tunnel has ended, right away if it has none. -/
theorem C197_done_iff (P : Prims) (E : Env) (chk : Bool) (t : Transit) (hs : t.shuttingDown = false) (os : List TransitOp) :
    ((Manager.mk t false).run P E chk os).over = true ↔
      .shutdown ∈ os ∧ ((Manager.mk t false).run P E chk os).t.tunnels = [] := by
  rw [Manager.run_inv P E chk os ⟨t, false⟩ false hs rfl]
  have : os.any asks = true ↔ .shutdown ∈ os := by
    rw [List.any_eq_true]
    constructor
    · rintro ⟨o, ho, ha⟩
      cases o <;> first | exact ho | cases ha
    · intro h; exact ⟨_, h, rfl⟩
  simp only [Bool.false_or, Bool.and_eq_true, this, List.isEmpty_iff]

/-- **C197**: until it is done the manager does with every message and every tunnel what it did before the shutdown was asked for,
so a tunnel ends only when its own task ends. -/
theorem C197_until_then (P : Prims) (E : Env) (chk : Bool) (t : Transit) (os : List TransitOp)
    (h : ((Manager.mk t false).run P E chk os).over = false) :
    ((Manager.mk t false).run P E chk os).t = (t.run P E chk os).1 := by
  have H : ∀ (os : List TransitOp) (s : Manager), (s.run P E chk os).over = false →
      s.over = false ∧ (s.run P E chk os).t = (s.t.run P E chk os).1 := by
    intro os
    induction os with
    | nil => intro s h; exact ⟨h, rfl⟩
    | cons o os ih =>
      intro s h
      have h' : (Manager.run P E chk (s.step P E chk o) os).over = false := h
      obtain ⟨a, b⟩ := ih _ h'
      have hs : s.over = false := by
        cases hh : s.over with
        | false => rfl
        | true => rw [Manager.step, if_pos hh, hh] at a; cases a
      refine ⟨hs, ?_⟩
      show (Manager.run P E chk (s.step P E chk o) os).t = _
      rw [b]
      have : (s.step P E chk o).t = (s.t.step P E chk o).1 := by
        unfold Manager.step; rw [hs]
        cases o <;> rfl
      rw [this]; rfl
  exact (H os _ h).2

/-- A router with one transit tunnel is asked to shut down, refuses the next request, and is done when its tunnel has ended. -/
example :
    let os := [TransitOp.message 60000000000 (demoRequest 77) 1, .shutdown, .message 60000000000 (demoRequest 78) 2]
    ((Manager.mk (router 3 5) false).run toyQ Env.sample true os).over = false ∧
    ((Manager.mk (router 3 5) false).run toyQ Env.sample true os).t.tunnels.length = 1 ∧
    ((Manager.mk (router 3 5) false).run toyQ Env.sample true (os ++ [.ended 0])).over = true := by decide +kernel

end Emissary.TBuild
