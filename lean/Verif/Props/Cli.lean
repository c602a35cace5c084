import Verif.Model.Cli
import Verif.Props.Events
import Verif.Props.Ntcp2Link
import Mathlib.Data.List.Induction
import Mathlib.Data.Nat.Init
/-!
# The program around the router (C266 to C268)
-/
namespace Emissary.Cli
open Emissary
open scoped List

/-! ## C266: Ctrl-C and the button -/

/-- How often the user asked for the shutdown. -/
def requests (os : List Op) : Nat := os.count .interrupt + os.count .press

theorem count_step (r : Router.State) (o : Router.Op) : (r.step o).count = match o with | .request => r.count + 1 | _ => r.count := by
  cases o with
  | request => simp only [Router.State.step]; split <;> rfl
  | poll t e =>
    simp only [Router.State.step, Router.State.poll]
    split
    · rfl
    · split
      · rfl
      · split <;> rfl
  | event e => cases e <;> rfl
  | _ => rfl

theorem step_snoc (s : State) (os : List Op) (o : Op) : s.run (os ++ [o]) = (s.run os).step o := by simp [State.run]

def State.total (s : State) : Nat := s.router.count + s.signals + s.button + s.waiting.toNat

theorem total_ask (s : State) (hw : s.waiting = false) : s.ask.total = s.total + 1 := by
  unfold State.ask State.total
  split
  · simp [count_step, hw]; omega
  · simp [hw]

theorem total_step (s : State) (o : Op) : s.total ≤ (s.step o).total ∧
    (s.step o).total ≤ s.total + (if o = .interrupt ∨ o = .press then 1 else 0) := by
  cases o with
  | interrupt => simp only [State.step]; split <;> simp [State.total] <;> omega
  | press => simp only [State.step]; split <;> simp [State.total] <;> omega
  | address a => simp only [State.step]; split <;> exact ⟨Nat.le_refl _, Nat.le_add_right _ _⟩
  | mapperEnds => exact ⟨Nat.le_refl _, Nat.le_add_right _ _⟩
  | takeSignal =>
    simp only [State.step]
    split
    · simp
    · next h =>
      simp only [Bool.or_eq_true, not_or, beq_iff_eq, Bool.not_eq_true] at h
      rw [total_ask { s with signals := s.signals - 1 } h.1.2]
      simp [State.total, h.1.2]; omega
  | takeButton =>
    simp only [State.step]
    split
    · simp
    · next h =>
      simp only [Bool.or_eq_true, not_or, beq_iff_eq, Bool.not_eq_true] at h
      rw [total_ask { s with button := s.button - 1 } h.1.2]
      simp [State.total, h.1.2]; omega
  | takeAddress =>
    simp only [State.step]
    split
    · simp
    · split <;> simp [State.total]
  | resume =>
    simp only [State.step]
    split
    · next h =>
      simp only [Bool.and_eq_true] at h
      simp [State.total, count_step, h.1]; omega
    · simp
  | pollRouter t e =>
    simp only [State.step]
    split
    · simp
    · simp [State.total, count_step]
  | elsewhere o =>
    cases o with
    | request => simp [State.step]
    | poll t e => simp [State.step]
    | look => simp [State.step, State.total, count_step]
    | answer => simp [State.step, State.total, count_step]
    | drop => simp [State.step, State.total, count_step]
    | event e => simp [State.step, State.total, count_step]

/-- **C266**, in part: the router is never asked to shut down more often than the user asked. -/
theorem C266_unasked_partial (mapper : Bool) (os : List Op) : ((State.init mapper).run os).router.count ≤ requests os := by
  suffices h : ((State.init mapper).run os).total ≤ requests os by unfold State.total at h; omega
  induction os using List.reverseRecOn with
  | nil => cases mapper <;> decide
  | append_singleton os o ih =>
    rw [step_snoc]
    have := (total_step ((State.init mapper).run os) o).2
    have hc : requests (os ++ [o]) = requests os + (if o = .interrupt ∨ o = .press then 1 else 0) := by
      unfold requests
      rw [List.count_append, List.count_append]
      cases o <;> simp [List.count_cons] <;> omega
    omega

/-- Everything that waits gets its turn again and again. -/
structure Fair (ev : Nat → Op) : Prop where
  signal : ∀ t, ∃ u, t ≤ u ∧ ev u = .takeSignal
  button : ∀ t, ∃ u, t ≤ u ∧ ev u = .takeButton
  resume : ∀ t, ∃ u, t ≤ u ∧ ev u = .resume
  poll : ∀ t, ∃ u a b, t ≤ u ∧ ev u = .pollRouter a b

/-- The state after the first `t` events. -/
def at_ (mapper : Bool) (ev : Nat → Op) : Nat → State
  | 0 => State.init mapper
  | t + 1 => (at_ mapper ev t).step (ev t)


section
variable {mapper : Bool} {ev : Nat → Op}

theorem step_task (s : State) (o : Op) : (s.step o).task = (if o = .mapperEnds then false else s.task) := by
  have ha : ∀ s : State, s.ask.task = s.task := by intro s; unfold State.ask; split <;> rfl
  cases o with
  | interrupt => simp only [State.step]; split <;> simp
  | press => simp only [State.step]; split <;> simp
  | address a => simp only [State.step]; split <;> simp
  | mapperEnds => rfl
  | takeSignal => simp only [State.step]; split <;> simp [ha]
  | takeButton => simp only [State.step]; split <;> simp [ha]
  | takeAddress =>
    simp only [State.step]
    split
    · simp
    · split <;> simp
  | resume => simp only [State.step]; split <;> simp
  | pollRouter t e => simp only [State.step]; split <;> simp
  | elsewhere o => cases o <;> simp [State.step]

/-- What a step does once the task of the port mapper is gone. -/
theorem step_calm (s : State) (o : Op) (ht : s.task = false) :
    ((s.step o).waiting = true → s.waiting = true ∧ o ≠ .resume) ∧ s.router.count ≤ (s.step o).router.count ∧
    ((s.step o).router.count = s.router.count → s.signals ≤ (s.step o).signals ∧ s.button ≤ (s.step o).button) ∧
    (s.waiting = false → s.ended = false → (o = .takeSignal ∧ 0 < s.signals ∨ o = .takeButton ∧ 0 < s.button) → s.router.count < (s.step o).router.count) := by
  have ha : ∀ s : State, s.task = false → s.ask = { s with asked := true, router := s.router.step .request } := by
    intro s h; unfold State.ask; simp [h]
  cases o with
  | interrupt => simp only [State.step]; split <;> simp
  | press => simp only [State.step]; split <;> simp
  | address a => simp only [State.step]; split <;> simp
  | mapperEnds => simp [State.step]
  | takeSignal =>
    simp only [State.step]
    split
    · next h => simp at h; simp; intro h1 h2; rcases h with (h | h) | h <;> simp_all
    · next h =>
      rw [ha { s with signals := s.signals - 1 } ht]
      simp [count_step]
  | takeButton =>
    simp only [State.step]
    split
    · next h => simp at h; simp; intro h1 h2; rcases h with (h | h) | h <;> simp_all
    · next h =>
      rw [ha { s with button := s.button - 1 } ht]
      simp [count_step]
  | takeAddress =>
    simp only [State.step]
    split
    · simp
    · split <;> simp
  | resume => simp only [State.step]; split <;> simp_all [count_step]
  | pollRouter t e => simp only [State.step]; split <;> simp [count_step]
  | elsewhere o => cases o <;> simp [State.step, count_step]

theorem task_gone (hm : mapper = false ∨ ∃ t, ev t = .mapperEnds) : ∃ T, ∀ t, T ≤ t → (at_ mapper ev t).task = false := by
  have keep : ∀ T, (at_ mapper ev T).task = false → ∀ t, T ≤ t → (at_ mapper ev t).task = false := by
    intro T h t ht
    induction t, ht using Nat.le_induction with
    | base => exact h
    | succ t _ ih => show (State.step _ _).task = _; rw [step_task, ih]; simp
  rcases hm with rfl | ⟨t, ht⟩
  · exact ⟨0, keep 0 rfl⟩
  · exact ⟨t + 1, keep (t + 1) (by show (State.step _ _).task = _; rw [step_task, if_pos ht])⟩

theorem not_waiting (hf : Fair ev) (hm : mapper = false ∨ ∃ t, ev t = .mapperEnds) :
    ∃ T, ∀ t, T ≤ t → (at_ mapper ev t).task = false ∧ (at_ mapper ev t).waiting = false := by
  obtain ⟨T, hT⟩ := task_gone hm
  obtain ⟨u, hu, he⟩ := hf.resume T
  have keep : ∀ t, u + 1 ≤ t → (at_ mapper ev t).waiting = false := by
    intro t ht
    induction t, ht using Nat.le_induction with
    | base =>
      have := (step_calm (at_ mapper ev u) (ev u) (hT u hu)).1
      show (State.step _ _).waiting = false
      cases hw : ((at_ mapper ev u).step (ev u)).waiting with
      | false => rfl
      | true => exact absurd he (this hw).2
    | succ t h ih =>
      have := (step_calm (at_ mapper ev t) (ev t) (hT t (by omega))).1
      show (State.step _ _).waiting = false
      cases hw : ((at_ mapper ev t).step (ev t)).waiting with
      | false => rfl
      | true => rw [(this hw).1] at ih; cases ih
  exact ⟨u + 1, fun t ht => ⟨hT t (by omega), keep t ht⟩⟩

theorem total_mono {t u : Nat} (h : t ≤ u) : (at_ mapper ev t).total ≤ (at_ mapper ev u).total := by
  induction u, h using Nat.le_induction with
  | base => exact Nat.le_refl _
  | succ u _ ih => exact Nat.le_trans ih (total_step _ _).1

theorem total_interrupt (t : Nat) (h : ev t = .interrupt) : (at_ mapper ev t).total + 1 ≤ (at_ mapper ev (t + 1)).total ∨ 16 ≤ (at_ mapper ev t).total := by
  by_cases hs : (at_ mapper ev t).signals < 16
  · left
    show _ ≤ ((at_ mapper ev t).step (ev t)).total
    rw [h]
    simp only [State.step, if_pos hs, State.total]
    omega
  · right; simp only [State.total]; omega

/-- The requests reach the router. -/
theorem reaches (hf : Fair ev) (hm : mapper = false ∨ ∃ t, ev t = .mapperEnds) (k T : Nat) (hk : k ≤ (at_ mapper ev T).total) :
    ∃ t, T ≤ t ∧ (k ≤ (at_ mapper ev t).router.count ∨ (at_ mapper ev t).ended = true) := by
  obtain ⟨T1, h1⟩ := not_waiting hf hm
  have calm : ∀ t, max T T1 ≤ t → _ := fun t ht => step_calm (at_ mapper ev t) (ev t) (h1 t (by omega)).1
  have tot : ∀ t, max T T1 ≤ t → k ≤ (at_ mapper ev t).router.count + (at_ mapper ev t).signals + (at_ mapper ev t).button := by
    intro t ht
    have := Nat.le_trans hk (total_mono (mapper := mapper) (ev := ev) (show T ≤ t by omega))
    simp only [State.total, (h1 t (by omega)).2, Bool.toNat_false] at this
    omega
  have cmono : ∀ t u, max T T1 ≤ t → t ≤ u → (at_ mapper ev t).router.count ≤ (at_ mapper ev u).router.count := by
    intro t u ht htu
    induction u, htu using Nat.le_induction with
    | base => exact Nat.le_refl _
    | succ u hu ih => exact Nat.le_trans ih (calm u (by omega)).2.1
  have still : ∀ t u, max T T1 ≤ t → t ≤ u → (at_ mapper ev u).router.count = (at_ mapper ev t).router.count →
      (at_ mapper ev t).signals ≤ (at_ mapper ev u).signals ∧ (at_ mapper ev t).button ≤ (at_ mapper ev u).button := by
    intro t u ht htu
    induction u, htu using Nat.le_induction with
    | base => intro _; exact ⟨Nat.le_refl _, Nat.le_refl _⟩
    | succ u hu ih =>
      intro e
      have c1 := cmono t u ht hu
      have c2 := (calm u (by omega)).2.1
      have e' : (at_ mapper ev (u + 1)).router.count = ((at_ mapper ev u).step (ev u)).router.count := rfl
      have i := ih (by omega)
      have c3 := (calm u (by omega)).2.2.1 (by omega)
      exact ⟨Nat.le_trans i.1 c3.1, Nat.le_trans i.2 c3.2⟩
  let help : Nat → Prop := fun t => (ev t = .takeSignal ∧ 0 < (at_ mapper ev t).signals ∨ ev t = .takeButton ∧ 0 < (at_ mapper ev t).button) ∨
    k ≤ (at_ mapper ev t).router.count
  obtain ⟨t, ht, hd⟩ := Ntcp2.Link.leads (fun t => k - (at_ mapper ev t).router.count)
    (fun t => k ≤ (at_ mapper ev t).router.count ∨ (at_ mapper ev t).ended = true) help (max T T1)
    (fun t ht _ => by have := cmono t (t + 1) ht (by omega); show k - _ ≤ k - _; omega)
    (fun t ht hd hh => by
      rw [not_or] at hd
      rcases hh with hh | hh
      · have := (calm t ht).2.2.2 (h1 t (by omega)).2 (by simpa using hd.2) hh
        have e' : (at_ mapper ev (t + 1)).router.count = ((at_ mapper ev t).step (ev t)).router.count := rfl
        show k - _ < k - _
        omega
      · exact absurd hh hd.1)
    (fun t ht => by
      by_cases hc : k ≤ (at_ mapper ev t).router.count
      · exact ⟨t, Nat.le_refl _, fun _ => .inr hc⟩
      · have := tot t ht
        by_cases hs : 0 < (at_ mapper ev t).signals
        · obtain ⟨u, hu, he⟩ := hf.signal t
          refine ⟨u, hu, fun e => ?_⟩
          by_cases hc' : k ≤ (at_ mapper ev u).router.count
          · exact .inr hc'
          · have := still t u ht hu (by omega)
            exact .inl (.inl ⟨he, by omega⟩)
        · obtain ⟨u, hu, he⟩ := hf.button t
          refine ⟨u, hu, fun e => ?_⟩
          by_cases hc' : k ≤ (at_ mapper ev u).router.count
          · exact .inr hc'
          · have := still t u ht hu (by omega)
            exact .inl (.inr ⟨he, by omega⟩))
  exact ⟨t, by omega, hd⟩

theorem ended_step (s : State) (o : Op) (h : s.ended = true) : (s.step o).ended = true := by
  cases o with
  | interrupt => simp only [State.step]; split <;> exact h
  | press => simp only [State.step]; split <;> exact h
  | address a => simp only [State.step]; split <;> exact h
  | mapperEnds => exact h
  | takeSignal => simp [State.step, h]
  | takeButton => simp [State.step, h]
  | takeAddress => simp [State.step, h]
  | resume => simp only [State.step]; split <;> exact h
  | pollRouter t e => simp [State.step, h]
  | elsewhere o => cases o <;> exact h

/-- **C266**, in part: if the port mapper answers, or port forwarding is not enabled, then a user who presses Ctrl-C twice ends the program,
whatever else happens in between and however busy the loop is. -/
theorem C266_twice_partial (hf : Fair ev) (hm : mapper = false ∨ ∃ t, ev t = .mapperEnds) {i j : Nat} (hij : i < j)
    (hi : ev i = .interrupt) (hj : ev j = .interrupt) : ∃ t, (at_ mapper ev t).ended = true := by
  have h2 : 2 ≤ (at_ mapper ev (j + 1)).total := by
    have a := total_interrupt (mapper := mapper) i hi
    have b := total_interrupt (mapper := mapper) j hj
    have c := total_mono (mapper := mapper) (ev := ev) (show i + 1 ≤ j by omega)
    have d := total_mono (mapper := mapper) (ev := ev) (show i ≤ i + 1 by omega)
    have e := total_mono (mapper := mapper) (ev := ev) (show j ≤ j + 1 by omega)
    omega
  obtain ⟨t, ht, h | h⟩ := reaches hf hm 2 (j + 1) h2
  · obtain ⟨T1, h1⟩ := not_waiting hf hm
    obtain ⟨u, a, b, hu, he⟩ := hf.poll (max t T1)
    by_cases hd : (at_ mapper ev u).ended = true
    · exact ⟨u, hd⟩
    · have hc : 2 ≤ (at_ mapper ev u).router.count := by
        have : ∀ u, t ≤ u → 2 ≤ (at_ mapper ev u).router.count := by
          intro u hu
          induction u, hu using Nat.le_induction with
          | base => exact h
          | succ u _ ih =>
            have hmono : ∀ (s : State) o, s.router.count ≤ (s.step o).router.count := by
              intro s o
              have ha : ∀ s : State, s.router.count ≤ s.ask.router.count := by intro s; unfold State.ask; split <;> simp [count_step]
              cases o with
              | interrupt => simp only [State.step]; split <;> exact Nat.le_refl _
              | press => simp only [State.step]; split <;> exact Nat.le_refl _
              | address a => simp only [State.step]; split <;> exact Nat.le_refl _
              | mapperEnds => exact Nat.le_refl _
              | takeSignal =>
                simp only [State.step]
                split
                · exact Nat.le_refl _
                · exact ha { s with signals := s.signals - 1 }
              | takeButton =>
                simp only [State.step]
                split
                · exact Nat.le_refl _
                · exact ha { s with button := s.button - 1 }
              | takeAddress =>
                simp only [State.step]
                split
                · exact Nat.le_refl _
                · split <;> exact Nat.le_refl _
              | resume => simp only [State.step]; split <;> simp [count_step]
              | pollRouter t e => simp only [State.step]; split <;> simp [count_step]
              | elsewhere o => cases o <;> simp [State.step, count_step]
            exact Nat.le_trans ih (hmono _ _)
        exact this u (by omega)
      refine ⟨u + 1, ?_⟩
      show (State.step _ _).ended = true
      rw [he]
      have hw := (h1 u (by omega)).2
      simp only [State.step]
      rw [if_neg (by simp [hw, hd])]
      dsimp only [Router.State.step]
      split
      · assumption
      · unfold Router.State.poll; rw [if_pos hc]
  · exact ⟨t, h⟩

end

/-- **C266**, violated: while the port mapper does not answer, which takes as long as its gateway likes, the loop neither polls the router nor
looks at Ctrl-C or the button: however often the user asks, nothing happens. -/
theorem C266_gateway_violated (s : State) (hw : s.waiting = true) (ht : s.task = true) (he : s.ended = false) (os : List Op)
    (hos : .mapperEnds ∉ os) : (s.run os).ended = false ∧ (s.run os).router.count = s.router.count ∧ (s.run os).told = s.told := by
  suffices h : ∀ (os : List Op) (s' : State), s'.waiting = true → s'.task = true → s'.ended = false → s'.router.count = s.router.count → s'.told = s.told →
      .mapperEnds ∉ os → (s'.run os).ended = false ∧ (s'.run os).router.count = s.router.count ∧ (s'.run os).told = s.told from
    h os s hw ht he rfl rfl hos
  intro os
  induction os with
  | nil => intro s' _ _ h3 h4 h5 _; exact ⟨h3, h4, h5⟩
  | cons o os ih =>
    intro s' h1 h2 h3 h4 h5 h6
    have hn : o ≠ .mapperEnds := fun h => h6 (by simp [h])
    have key : (s'.step o).waiting = true ∧ (s'.step o).ended = false ∧ (s'.step o).router.count = s'.router.count ∧ (s'.step o).told = s'.told := by
      cases o with
      | interrupt => simp only [State.step]; split <;> exact ⟨h1, h3, rfl, rfl⟩
      | press => simp only [State.step]; split <;> exact ⟨h1, h3, rfl, rfl⟩
      | address a => simp only [State.step]; split <;> exact ⟨h1, h3, rfl, rfl⟩
      | mapperEnds => exact absurd rfl hn
      | takeSignal => simp [State.step, h1, h3]
      | takeButton => simp [State.step, h1, h3]
      | takeAddress => simp [State.step, h1, h3]
      | resume => simp [State.step, h1, h2, h3]
      | pollRouter t e => simp [State.step, h1, h3]
      | elsewhere o => cases o <;> simp [State.step, h1, h3, count_step]
    obtain ⟨k1, k2, k3, k4⟩ := key
    exact ih (s'.step o) k1 (by rw [step_task, if_neg hn]; exact h2) k2 (k3.trans h4) (k4.trans h5) fun h => h6 (by simp [h])

example := C266_gateway_violated ((State.init true).run [.interrupt, .takeSignal]) (by decide +kernel) (by decide +kernel) (by decide +kernel)
  [.interrupt, .interrupt, .press, .takeSignal, .pollRouter true false, .takeButton, .resume] (by decide)

/-- The addresses that the port mapper reported. -/
def addresses (os : List Op) : List Nat := os.filterMap fun | .address a => some a | _ => none

/-- What a step does to the addresses that were told or wait. -/
theorem told_step (s : State) (o : Op) : (s.step o).told ++ (s.step o).found = s.told ++ s.found ++
    (match o with | .address a => if s.task && decide (s.found.length < 64) then [a] else [] | _ => []) := by
  have ha : ∀ s : State, s.ask.told = s.told ∧ s.ask.found = s.found := by intro s; unfold State.ask; split <;> exact ⟨rfl, rfl⟩
  cases o with
  | address a => simp only [State.step]; split <;> simp
  | takeSignal =>
    simp only [State.step]
    split
    · simp
    · rw [(ha _).1, (ha _).2]; simp
  | takeButton =>
    simp only [State.step]
    split
    · simp
    · rw [(ha _).1, (ha _).2]; simp
  | takeAddress =>
    simp only [State.step]
    split
    · simp
    · split <;> simp_all
  | elsewhere o => cases o <;> simp [State.step]
  | interrupt => simp only [State.step]; split <;> simp
  | press => simp only [State.step]; split <;> simp
  | mapperEnds => simp [State.step]
  | resume => simp only [State.step]; split <;> simp
  | pollRouter t e => simp only [State.step]; split <;> simp

/-- **C222**, in part: the router is told the addresses that the port mapper reports in their order, each once; those that it has not been told are the last ones and wait
for the loop, and none is lost while the port mapper runs and fewer than 64 wait. -/
theorem C222_told_partial (os : List Op) :
    ((State.init true).run os).told ++ ((State.init true).run os).found <+ addresses os ∧
    (.mapperEnds ∉ os → (∀ p q, os = p ++ q → ((State.init true).run p).found.length < 64) →
      ((State.init true).run os).told ++ ((State.init true).run os).found = addresses os) ∧
    (∀ a l, ((State.init true).run os).found = a :: l → ((State.init true).run os).ended = false → ((State.init true).run os).waiting = false →
      ((State.init true).run (os ++ [.takeAddress])).told = ((State.init true).run os).told ++ [a]) := by
  refine ⟨?_, ?_, ?_⟩
  · induction os using List.reverseRecOn with
    | nil => exact List.Sublist.refl _
    | append_singleton os o ih =>
      rw [step_snoc, told_step]
      have e : addresses (os ++ [o]) = addresses os ++ addresses [o] := by simp [addresses]
      rw [e]
      refine ih.append ?_
      cases o with
      | address a => dsimp only; split <;> simp [addresses]
      | _ => simp
  · induction os using List.reverseRecOn with
    | nil => intro _ _; rfl
    | append_singleton os o ih =>
      intro h1 h2
      have ht : ((State.init true).run os).task = true := by
        have : ∀ os : List Op, .mapperEnds ∉ os → ((State.init true).run os).task = true := by
          intro os
          induction os using List.reverseRecOn with
          | nil => intro _; rfl
          | append_singleton os o ih =>
            intro h
            rw [step_snoc, step_task, if_neg (fun e => h (by simp [e]))]
            exact ih fun hh => h (List.mem_append_left _ hh)
        exact this os fun hh => h1 (List.mem_append_left _ hh)
      have hl := h2 os [o] rfl
      rw [step_snoc, told_step, ih (fun hh => h1 (List.mem_append_left _ hh)) (fun p q e => h2 p (q ++ [o]) (by rw [e]; simp))]
      have e : addresses (os ++ [o]) = addresses os ++ addresses [o] := by simp [addresses]
      rw [e]
      congr 1
      cases o with
      | address a => simp [ht, hl, addresses]
      | _ => rfl
  · intro a l h1 h2 h3
    rw [step_snoc]
    simp only [State.step, h1, h2, h3, Bool.or_self, Bool.false_eq_true, if_false]

example : ((State.init true).run [.address 1, .address 2, .takeAddress, .address 3, .takeAddress]).told = [1, 2] := by decide +kernel

/-- Nothing happens to the router but its own steps. -/
theorem router_step (s : State) (o : Op) : (s.step o).router = s.router ∨ ∃ r, (s.step o).router = s.router.step r := by
  have ha : ∀ s : State, s.ask.router = s.router ∨ ∃ r, s.ask.router = s.router.step r := by
    intro s; unfold State.ask; split
    · exact .inr ⟨.request, rfl⟩
    · exact .inl rfl
  cases o with
  | interrupt => simp only [State.step]; split <;> exact .inl rfl
  | press => simp only [State.step]; split <;> exact .inl rfl
  | address a => simp only [State.step]; split <;> exact .inl rfl
  | mapperEnds => exact .inl rfl
  | takeSignal =>
    simp only [State.step]
    split
    · exact .inl rfl
    · exact ha { s with signals := s.signals - 1 }
  | takeButton =>
    simp only [State.step]
    split
    · exact .inl rfl
    · exact ha { s with button := s.button - 1 }
  | takeAddress =>
    simp only [State.step]
    split
    · exact .inl rfl
    · split <;> exact .inl rfl
  | resume =>
    simp only [State.step]
    split
    · exact .inr ⟨.request, rfl⟩
    · exact .inl rfl
  | pollRouter t e =>
    simp only [State.step]
    split
    · exact .inl rfl
    · exact .inr ⟨.poll t e, rfl⟩
  | elsewhere o =>
    by_cases h : (s.step (.elsewhere o)).router = s.router
    · exact .inl h
    · exact .inr ⟨o, by cases o <;> first | rfl | exact absurd rfl h⟩

/-- The one handle of the router's shutdown context is that of the transit manager. -/
structure One (r : Router.State) : Prop where
  created : r.shutdown.created = 1
  waiting : ∀ i ∈ r.shutdown.waiting, i = 0
  handles : ∀ i ∈ r.shutdown.handles, i = 0
  asked : 1 ≤ r.count → r.shutdown.shuttingDown = true

theorem One.step {r : Router.State} (h : One r) (o : Router.Op) : One (r.step o) ∧ (0 ∈ r.shutdown.dropped → 0 ∈ (r.step o).shutdown.dropped) := by
  obtain ⟨h1, h2, h3, h4⟩ := h
  cases o with
  | request =>
    simp only [Router.State.step]
    split
    · refine ⟨⟨h1, ?_, ?_, fun _ => rfl⟩, id⟩
      · intro i hi
        simp only [Shutdown.State.step, List.mem_append, List.mem_filter] at hi
        rcases hi with hi | hi
        · exact h2 i hi
        · exact h3 i hi.1
      · intro i hi; simp [Shutdown.State.step] at hi
    · next hc => exact ⟨⟨h1, h2, h3, fun _ => h4 (by simp at hc; omega)⟩, id⟩
  | poll t e =>
    simp only [Router.State.step]
    split
    · exact ⟨⟨h1, h2, h3, h4⟩, id⟩
    · unfold Router.State.poll
      split
      · exact ⟨⟨h1, h2, h3, h4⟩, id⟩
      · split
        · exact ⟨⟨h1, h2, h3, h4⟩, id⟩
        · refine ⟨⟨h1, ?_, h3, h4⟩, id⟩
          intro i hi
          simp only [Shutdown.State.step, List.mem_filter] at hi
          exact h2 i hi.1
  | look =>
    simp only [Router.State.step, Shutdown.State.step]
    split <;> exact ⟨⟨h1, h2, h3, h4⟩, id⟩
  | answer =>
    simp only [Router.State.step, Shutdown.State.step]
    split <;> exact ⟨⟨h1, h2, h3, h4⟩, id⟩
  | drop =>
    simp only [Router.State.step, Shutdown.State.step]
    split
    · exact ⟨⟨h1, h2, h3, h4⟩, fun h => List.mem_cons_of_mem _ h⟩
    · exact ⟨⟨h1, h2, h3, h4⟩, id⟩
  | event e => cases e <;> exact ⟨⟨h1, h2, h3, h4⟩, id⟩

section
variable {mapper : Bool} {ev : Nat → Op}

theorem one (t : Nat) : One (at_ mapper ev t).router := by
  induction t with
  | zero =>
    have : (at_ mapper ev 0).router = {} := rfl
    rw [this]
    exact ⟨by decide, by decide, by decide, by decide⟩
  | succ t ih =>
    show One ((at_ mapper ev t).step (ev t)).router
    rcases router_step (at_ mapper ev t) (ev t) with h | ⟨r, h⟩ <;> rw [h]
    · exact ih
    · exact (ih.step r).1

/-- **C266**, in part: if the port mapper answers, or port forwarding is not enabled, then one request, by Ctrl-C or by the button, ends the
program when the router's transit tunnels are gone. -/
theorem C266_graceful_partial (hf : Fair ev) (hm : mapper = false ∨ ∃ t, ev t = .mapperEnds) {i j : Nat}
    (hi : ev i = .interrupt ∨ ev i = .press) (hj : ev j = .elsewhere .drop) : ∃ t, (at_ mapper ev t).ended = true := by
  have h2 : 1 ≤ (at_ mapper ev (i + 1)).total := by
    have d := total_mono (mapper := mapper) (ev := ev) (show i ≤ i + 1 by omega)
    rcases hi with hi | hi
    · have a := total_interrupt (mapper := mapper) i hi
      omega
    · by_cases hs : (at_ mapper ev i).button < 1
      · have : (at_ mapper ev (i + 1)).button = (at_ mapper ev i).button + 1 := by
          show ((at_ mapper ev i).step (ev i)).button = _
          rw [hi]
          simp only [State.step, if_pos hs]
        simp only [State.total]
        omega
      · have : 1 ≤ (at_ mapper ev i).total := by simp only [State.total]; omega
        omega
  obtain ⟨t, ht, h | h⟩ := reaches hf hm 1 (i + 1) h2
  · obtain ⟨T1, h1⟩ := not_waiting hf hm
    obtain ⟨u, a, b, hu, he⟩ := hf.poll (max (max t (j + 1)) T1)
    by_cases hd : (at_ mapper ev u).ended = true
    · exact ⟨u, hd⟩
    · have hc : 1 ≤ (at_ mapper ev u).router.count := by
        have : ∀ u, t ≤ u → 1 ≤ (at_ mapper ev u).router.count := by
          intro u hu
          induction u, hu using Nat.le_induction with
          | base => exact h
          | succ u _ ih =>
            show 1 ≤ ((at_ mapper ev u).step (ev u)).router.count
            rcases router_step (at_ mapper ev u) (ev u) with h | ⟨r, h⟩ <;> rw [h]
            · exact ih
            · rw [count_step]; split <;> omega
        exact this u (by omega)
      have hdr : 0 ∈ (at_ mapper ev u).router.shutdown.dropped := by
        have : ∀ u, j + 1 ≤ u → 0 ∈ (at_ mapper ev u).router.shutdown.dropped := by
          intro u hu
          induction u, hu using Nat.le_induction with
          | base =>
            show 0 ∈ ((at_ mapper ev j).step (ev j)).router.shutdown.dropped
            rw [hj]
            simp [State.step, Router.State.step, Shutdown.State.step, (one (mapper := mapper) (ev := ev) j).created]
          | succ u _ ih =>
            show 0 ∈ ((at_ mapper ev u).step (ev u)).router.shutdown.dropped
            rcases router_step (at_ mapper ev u) (ev u) with h | ⟨r, h⟩ <;> rw [h]
            · exact ih
            · exact ((one u).step r).2 ih
        exact this u (by omega)
      have hr : (at_ mapper ev u).router.shutdown.ready = true := by
        have o := one (mapper := mapper) (ev := ev) u
        unfold Shutdown.State.ready
        rw [o.asked hc, Bool.true_and, List.all_eq_true]
        intro k hk
        rw [o.waiting k hk]
        simp [Shutdown.State.done, hdr]
      refine ⟨u + 1, ?_⟩
      show (State.step _ _).ended = true
      rw [he]
      have hw := (h1 u (by omega)).2
      simp only [State.step]
      rw [if_neg (by simp [hw, hd])]
      dsimp only [Router.State.step]
      split
      · assumption
      · unfold Router.State.poll
        by_cases h2 : 2 ≤ (at_ mapper ev u).router.count
        · rw [if_pos h2]
        · rw [if_neg h2, if_pos hr]
  · exact ⟨t, h⟩

/-- **C266**, in part: and without a request the loop goes on as long as the transports do. -/
theorem C266_unasked_goes_on_partial (os : List Op) (h : requests os = 0) (ht : ∀ timer, .pollRouter timer true ∉ os) :
    ((State.init mapper).run os).ended = false := by
  suffices H : ((State.init mapper).run os).ended = false ∧ ((State.init mapper).run os).router.over = false ∧
      One ((State.init mapper).run os).router ∧ ((State.init mapper).run os).router.shutdown.shuttingDown = false from H.1
  induction os using List.reverseRecOn with
  | nil => refine ⟨rfl, rfl, ⟨?_, ?_, ?_, ?_⟩, ?_⟩ <;> cases mapper <;> decide
  | append_singleton os o ih =>
    have hr : requests os = 0 ∧ o ≠ .interrupt ∧ o ≠ .press := by
      unfold requests at h ⊢
      rw [List.count_append, List.count_append] at h
      refine ⟨by omega, ?_, ?_⟩ <;> rintro rfl <;> simp at h
    have hc := C266_unasked_partial mapper os
    have tot : ((State.init mapper).run os).total = 0 := by
      have : ∀ os, ((State.init mapper).run os).total ≤ requests os := by
        intro os
        induction os using List.reverseRecOn with
        | nil => cases mapper <;> decide
        | append_singleton os o ih =>
          rw [step_snoc]
          have := (total_step ((State.init mapper).run os) o).2
          have hc : requests (os ++ [o]) = requests os + (if o = .interrupt ∨ o = .press then 1 else 0) := by
            unfold requests
            rw [List.count_append, List.count_append]
            cases o <;> simp [List.count_cons] <;> omega
          omega
      have := this os
      omega
    obtain ⟨i1, i2, i3, i4⟩ := ih hr.1 fun t hm => ht t (by simp [hm])
    rw [step_snoc]
    generalize (State.init mapper).run os = s at *
    simp only [State.total] at tot
    have w : s.waiting = false := by cases hw : s.waiting with | false => rfl | true => rw [hw] at tot; simp at tot
    have key : (s.step o).router = s.router ∧ (s.step o).ended = s.ended ∨
        ∃ r, r ≠ .request ∧ (∀ t, r ≠ .poll t true) ∧ (s.step o).router = s.router.step r ∧ ((s.step o).ended = s.ended ∨ (s.step o).ended = (s.step o).router.over) := by
      cases o with
      | interrupt => exact absurd rfl hr.2.1
      | press => exact absurd rfl hr.2.2
      | address a => simp only [State.step]; split <;> exact .inl ⟨rfl, rfl⟩
      | mapperEnds => exact .inl ⟨rfl, rfl⟩
      | takeSignal => simp [State.step, show s.signals = 0 by omega]
      | takeButton => simp [State.step, show s.button = 0 by omega]
      | takeAddress =>
        simp only [State.step]
        split
        · exact .inl ⟨rfl, rfl⟩
        · split <;> exact .inl ⟨rfl, rfl⟩
      | resume => simp [State.step, w]
      | pollRouter t e =>
        simp only [State.step]
        split
        · exact .inl ⟨rfl, rfl⟩
        · refine .inr ⟨.poll t e, by simp, ?_, rfl, .inr rfl⟩
          intro t' h'
          cases h'
          exact ht t (by simp)
      | elsewhere o =>
        cases o with
        | request => exact .inl ⟨rfl, rfl⟩
        | poll t e => exact .inl ⟨rfl, rfl⟩
        | look => exact .inr ⟨.look, by simp, by simp, rfl, .inl rfl⟩
        | answer => exact .inr ⟨.answer, by simp, by simp, rfl, .inl rfl⟩
        | drop => exact .inr ⟨.drop, by simp, by simp, rfl, .inl rfl⟩
        | event e => exact .inr ⟨.event e, by simp, by simp, rfl, .inl rfl⟩
    rcases key with ⟨k1, k2⟩ | ⟨r, k0, k1, k2, k3⟩
    · rw [k1, k2]; exact ⟨i1, i2, i3, i4⟩
    · have over : (s.router.step r).over = false ∧ (s.router.step r).shutdown.shuttingDown = false := by
        cases r with
        | request => exact absurd rfl k0
        | poll t e =>
          have he : e = false := by cases e with | false => rfl | true => exact absurd rfl (k1 t)
          simp only [Router.State.step, i2, Router.State.poll]
          rw [if_neg (by simp), if_neg (by omega), if_neg (by simp [Shutdown.State.ready, i4])]
          exact ⟨he, i4⟩
        | look => simp only [Router.State.step, Shutdown.State.step]; split <;> exact ⟨i2, i4⟩
        | answer => simp only [Router.State.step, Shutdown.State.step]; split <;> exact ⟨i2, i4⟩
        | drop => simp only [Router.State.step, Shutdown.State.step]; split <;> exact ⟨i2, i4⟩
        | event e => cases e <;> exact ⟨i2, i4⟩
      refine ⟨?_, by rw [k2]; exact over.1, by rw [k2]; exact (i3.step r).1, by rw [k2]; exact over.2⟩
      rcases k3 with k3 | k3
      · rw [k3, i1]
      · rw [k3, k2, over.1]

end

/-- A loop that takes its turns one after the other, while the user presses Ctrl-C at the start, and again a little later. -/
def turns (t : Nat) : Op :=
  if t = 0 ∨ t = 7 then .interrupt else if t = 9 then .mapperEnds else
  if t % 4 = 0 then .takeSignal else if t % 4 = 1 then .takeButton else if t % 4 = 2 then .resume else .pollRouter true false

theorem turns_fair : Fair turns where
  signal t := ⟨4 * (t + 1), by omega, by
    unfold turns; rw [if_neg (by omega), if_neg (by omega), if_pos (by omega)]⟩
  button t := ⟨4 * (t + 3) + 1, by omega, by
    unfold turns; rw [if_neg (by omega), if_neg (by omega), if_neg (by omega), if_pos (by omega)]⟩
  resume t := ⟨4 * (t + 3) + 2, by omega, by
    unfold turns; rw [if_neg (by omega), if_neg (by omega), if_neg (by omega), if_neg (by omega), if_pos (by omega)]⟩
  poll t := ⟨4 * (t + 3) + 3, true, false, by omega, by
    unfold turns; rw [if_neg (by omega), if_neg (by omega), if_neg (by omega), if_neg (by omega), if_neg (by omega)]⟩

example : ∃ t, (at_ true turns t).ended = true :=
  C266_twice_partial (i := 0) (j := 7) turns_fair (.inr ⟨9, rfl⟩) (by omega) rfl rfl

/-- At time 9 the port mapper answers; before that the second Ctrl-C has changed nothing. -/
example : (at_ true turns 9).ended = false ∧ (at_ true turns 16).ended = true := by decide +kernel

/-- The same with one press of the button and transit tunnels that end. -/
def turns1 (t : Nat) : Op := if t = 0 then .press else if t = 7 then .elsewhere .drop else turns t

example : ∃ t, (at_ true turns1 t).ended = true :=
  C266_graceful_partial (i := 0) (j := 7)
    ⟨fun t => ⟨4 * (t + 4), by omega, by unfold turns1 turns; simp (disch := omega) only [if_neg, if_pos]⟩,
     fun t => ⟨4 * (t + 4) + 1, by omega, by unfold turns1 turns; simp (disch := omega) only [if_neg, if_pos]⟩,
     fun t => ⟨4 * (t + 4) + 2, by omega, by unfold turns1 turns; simp (disch := omega) only [if_neg, if_pos]⟩,
     fun t => ⟨4 * (t + 4) + 3, true, false, by omega, by unfold turns1 turns; simp (disch := omega) only [if_neg, if_pos]⟩⟩
    (.inr ⟨9, rfl⟩) (.inr rfl) rfl

example : ((State.init true).run [.address 5, .takeAddress, .pollRouter true false, .elsewhere .look, .mapperEnds]).ended = false :=
  C266_unasked_goes_on_partial _ (by decide) (by decide)

/-! ## C267: what the window shows -/

/-- What the other parts of the router reported. -/
def reported (ops : List WOp) : List Events.Op := ops.filterMap fun
  | .report .read => none
  | .report o => some o
  | _ => none

/-- The same with the reads of the window. -/
def reads (w : Window) : WOp → List Events.Op
  | .message _ .tick => List.replicate w.events.queue.length .read
  | .report .read => []
  | .report o => [o]
  | _ => []

theorem wrun_snoc (ops : List WOp) (o : WOp) : Window.run (ops ++ [o]) = (Window.run ops).step o := by
  simp [Window.run, List.foldl_append]

theorem read_all : ∀ (n : Nat) (e : Events.State), e.queue.length = n → (List.replicate n Events.Op.read).foldl Events.State.step e = readAll e := by
  intro n
  induction n with
  | zero =>
    intro e h
    have : e.queue = [] := List.eq_nil_of_length_eq_zero h
    simp [readAll, this]
    rw [← this]
  | succ n ih =>
    intro e h
    match hq : e.queue, h with
    | x :: q, h =>
      rw [List.replicate_succ, List.foldl_cons]
      have : e.step .read = { e with queue := q, seen := e.seen ++ [x] } := by simp only [Events.State.step, hq]
      rw [this, ih _ (by simp [hq] at h; exact h)]
      simp [readAll, hq]

theorem events_step (w : Window) (o : WOp) : (w.step o).events = (reads w o).foldl Events.State.step w.events := by
  cases o with
  | message now m =>
    cases m with
    | tick => exact (read_all _ _ rfl).symm
    | _ => rfl
  | report o => cases o <;> rfl
  | taken => rfl

/-- The calls to the event manager and its subscriber, in order. -/
def calls : List WOp → Window → List Events.Op
  | [], _ => []
  | o :: ops, w => reads w o ++ calls ops (w.step o)

theorem calls_append (ops : List WOp) (o : WOp) (w : Window) : calls (ops ++ [o]) w = calls ops w ++ reads (ops.foldl Window.step w) o := by
  induction ops generalizing w with
  | nil => simp [calls]
  | cons x ops ih => simp [calls, ih]

theorem events_run (ops : List WOp) : (Window.run ops).events = Events.run (calls ops {}) := by
  induction ops using List.reverseRecOn with
  | nil => rfl
  | append_singleton ops o ih =>
    rw [wrun_snoc, events_step, ih, calls_append]
    simp [Events.run, List.foldl_append, Window.run]

theorem calls_filter (ops : List WOp) : (calls ops {}).filter (· ≠ .read) = reported ops := by
  induction ops using List.reverseRecOn with
  | nil => rfl
  | append_singleton ops o ih =>
    rw [calls_append, List.filter_append, ih]
    unfold reported
    rw [List.filterMap_append]
    congr 1
    cases o with
    | message now m => cases m <;> simp [reads]
    | report o => cases o <;> simp [reads]
    | taken => rfl

theorem filterMap_calls (f : Events.Op → Option α) (h : f .read = none) (ops : List WOp) : (calls ops {}).filterMap f = (reported ops).filterMap f := by
  rw [← calls_filter, List.filterMap_filter]
  congr 1
  funext x
  by_cases hx : x = .read
  · simp [hx, h]
  · simp [hx]

theorem truth_filter (os : List Events.Op) : Events.truth (os.filter (· ≠ .read)) = Events.truth os := by
  have h : ∀ f : Events.Op → Option Nat, f .read = none → (os.filter (· ≠ .read)).filterMap f = os.filterMap f := by
    intro f hf
    rw [List.filterMap_filter]
    congr 1
    funext x
    by_cases hx : x = .read
    · simp [hx, hf]
    · simp [hx]
  unfold Events.truth Events.latest Events.total
  rw [h _ rfl, h _ rfl, h _ rfl, h _ rfl, h _ rfl, h _ rfl]

theorem ticks_filter (os : List Events.Op) : Events.ticks (os.filter (· ≠ .read)) = Events.ticks os := by
  induction os using List.reverseRecOn with
  | nil => rfl
  | append_singleton os o ih =>
    rw [Events.ticks_snoc, List.filter_append]
    by_cases ho : o = .read
    · subst ho; simpa using ih
    · have : [o].filter (· ≠ Events.Op.read) = [o] := by simp [ho]
      rw [this, Events.ticks_snoc, ih, truth_filter]

theorem seen_step (e : Events.State) (o : Events.Op) (h : o ≠ .read) : (e.step o).seen = e.seen := by
  cases o with
  | read => exact absurd rfl h
  | start d => simp only [Events.State.step]; split <;> rfl
  | poll t =>
    simp only [Events.State.step]
    split
    · simp only [Events.State.tick, Events.State.emit]; split <;> rfl
    · rfl
  | shutdown =>
    simp only [Events.State.step]
    split
    · simp only [Events.State.emit]; split <;> rfl
    · simp only [Events.State.emit]; split <;> rfl
    · rfl
  | _ => rfl

/-- What the window shows is what the events that it read said. -/
theorem shown (ops : List WOp) :
    (Window.run ops).ui.numbers = (Events.statuses (Window.run ops).events.seen).getLastD {} ∧
    (Window.run ops).ui.clients = Events.clientsIn (Window.run ops).events.seen ∧
    (Window.run ops).ui.servers = Events.serversIn (Window.run ops).events.seen := by
  have fold : ∀ (now : Nat) (q : List Events.Event) (u : Ui) (l : List Events.Event),
      u.numbers = (Events.statuses l).getLastD {} ∧ u.clients = Events.clientsIn l ∧ u.servers = Events.serversIn l →
      (q.foldl (Ui.event now) u).numbers = (Events.statuses (l ++ q)).getLastD {} ∧
      (q.foldl (Ui.event now) u).clients = Events.clientsIn (l ++ q) ∧ (q.foldl (Ui.event now) u).servers = Events.serversIn (l ++ q) := by
    intro now q
    induction q with
    | nil => intro u l h; simpa using h
    | cons e q ih =>
      intro u l h
      have := ih (Ui.event now u e) (l ++ [e]) (by
        cases e with
        | status c s n => simp [Ui.event, Events.statuses, Events.clientsIn, Events.serversIn, h.2.1, h.2.2]
        | shuttingDown =>
          cases hs : u.status <;> simpa [Ui.event, hs, Events.statuses, Events.clientsIn, Events.serversIn] using h
        | shutDown => simpa [Ui.event, Events.statuses, Events.clientsIn, Events.serversIn] using h)
      simpa using this
  induction ops using List.reverseRecOn with
  | nil => exact ⟨rfl, rfl, rfl⟩
  | append_singleton ops o ih =>
    rw [wrun_snoc]
    cases o with
    | message now m =>
      cases m with
      | tick => exact fold now _ _ _ ih
      | _ => exact ih
    | report o =>
      by_cases h : o = .read
      · subst h; exact ih
      · have e : (Window.run ops).step (.report o) = { Window.run ops with events := (Window.run ops).events.step o } := by
          cases o <;> first | rfl | exact absurd rfl h
        rw [e]
        dsimp only
        rw [seen_step _ _ h]
        exact ih
    | taken => exact ih

/-- **C267**: the numbers in the window are the zeros of the start, or those that were true at a moment when the router's timer fired; the
destinations in it are destinations that were started, each at most once, in the order in which they were started. -/
theorem C267_true (ops : List WOp) :
    (Window.run ops).ui.numbers ∈ {} :: Events.ticks (reported ops) ∧
    ((Window.run ops).ui.clients <+ Events.startedClients (reported ops)) ∧
    ((Window.run ops).ui.servers <+ Events.startedServers (reported ops)) := by
  obtain ⟨h1, h2, h3⟩ := shown ops
  have c := Events.C194_numbers (calls ops {})
  have d := Events.C195_once (calls ops {})
  rw [← events_run] at c d
  have e1 : Events.startedClients (calls ops {}) = Events.startedClients (reported ops) := filterMap_calls _ rfl ops
  have e2 : Events.startedServers (calls ops {}) = Events.startedServers (reported ops) := filterMap_calls _ rfl ops
  rw [e1, e2] at d
  refine ⟨?_, h2 ▸ d.1, h3 ▸ d.2⟩
  rw [h1]
  rw [← ticks_filter, calls_filter] at c
  have : Events.statuses (Window.run ops).events.seen ⊆ Events.ticks (reported ops) := by
    refine List.Subset.trans ?_ c.subset
    unfold Events.State.told Events.statuses
    rw [List.filterMap_append]
    exact List.subset_append_left _ _
  cases hl : (Events.statuses (Window.run ops).events.seen).getLast? with
  | none =>
    rw [List.getLast?_eq_none_iff] at hl
    rw [hl]; exact List.mem_cons_self
  | some x =>
    have hm := List.mem_of_getLast? hl
    rw [List.getLastD_eq_getLast?, hl]
    exact List.mem_cons_of_mem _ (this hm)

/-- **C267**: when the router's timer fires and the window refreshes after it, the window shows the numbers of that moment, unless 64 events were
waiting for it. -/
theorem C267_fresh (ops : List WOp) (now : Nat) (h : (Window.run ops).events.queue.length < 64) :
    (Window.run (ops ++ [.report (.poll true), .message now .tick])).ui.numbers = Events.truth (reported ops) := by
  have e : Window.run (ops ++ [.report (.poll true), .message now .tick]) = ((Window.run ops).step (.report (.poll true))).step (.message now .tick) := by
    simp [Window.run, List.foldl_append]
  have h' := h
  rw [events_run] at h'
  obtain ⟨c, s, hq⟩ := Events.C194_now (calls ops {}) h'
  rw [Events.run_snoc, ← events_run, ← truth_filter, calls_filter] at hq
  rw [e]
  show (List.foldl (Ui.event now) _ ((Window.run ops).events.step (.poll true)).queue).numbers = _
  rw [hq, List.foldl_append]
  rfl

theorem calls_split (ops : List WOp) : ∀ (a b : List Events.Op) (x : Events.Op), calls ops {} = a ++ x :: b → x ≠ .read →
    ∃ p q, ops = p ++ .report x :: q ∧ (Window.run p).events = Events.run a := by
  induction ops using List.reverseRecOn with
  | nil => intro a b x h; simp [calls] at h
  | append_singleton ops o ih =>
    intro a b x h hx
    rw [calls_append] at h
    rw [List.append_eq_append_iff] at h
    rcases h with ⟨c, h1, h2⟩ | ⟨c, h1, h2⟩
    · have key : c = [] ∧ o = .report x := by
        cases o with
        | message now m =>
          cases m with
          | tick =>
            have : x ∈ List.replicate (List.foldl Window.step {} ops).events.queue.length Events.Op.read := by
              have h2 : List.replicate (List.foldl Window.step {} ops).events.queue.length Events.Op.read = c ++ x :: b := h2
              rw [h2]; simp
            exact absurd (List.eq_of_mem_replicate this) hx
          | _ => simp [reads] at h2
        | report o =>
          have h3 : reads (List.foldl Window.step {} ops) (.report o) = [o] ∨ reads (List.foldl Window.step {} ops) (.report o) = [] := by
            cases o <;> simp [reads]
          rcases h3 with h3 | h3
          · rw [h3] at h2
            cases c with
            | nil => simp at h2; exact ⟨rfl, by rw [h2.1]⟩
            | cons y c => simp at h2
          · rw [h3] at h2; simp at h2
        | taken => simp [reads] at h2
      exact ⟨ops, [], by rw [key.2], by rw [h1, key.1, List.append_nil, ← events_run]⟩
    · cases c with
      | nil =>
        simp at h1 h2
        have key : o = .report x := by
          cases o with
          | message now m =>
            cases m with
            | tick =>
              have : x ∈ List.replicate (List.foldl Window.step {} ops).events.queue.length Events.Op.read := by
                have h2 : x :: b = List.replicate (List.foldl Window.step {} ops).events.queue.length Events.Op.read := h2
                rw [← h2]; simp
              exact absurd (List.eq_of_mem_replicate this) hx
            | _ => simp [reads] at h2
          | report o => cases o <;> simp [reads] at h2 <;> rw [h2.1]
          | taken => simp [reads] at h2
        exact ⟨ops, [], by rw [key], by rw [← h1, ← events_run]⟩
      | cons y c =>
        simp at h2
        obtain ⟨rfl, h2⟩ := h2
        obtain ⟨p, q, h3, h4⟩ := ih a c x h1 hx
        exact ⟨p, q ++ [o], by simp [h3], h4⟩

/-- **C267**, in part: and it shows every destination that was started before, provided that no channel was full when it was needed. -/
theorem C267_all_partial (ops : List WOp) (now : Nat)
    (hstart : ∀ p d q, ops = p ++ .report (.start d) :: q → (Window.run p).events.starts.length < 64)
    (htick : ∀ p q, ops ++ [.report (.poll true)] = p ++ .report (.poll true) :: q → (Window.run p).events.queue.length < 64) :
    (Window.run (ops ++ [.report (.poll true), .message now .tick])).ui.clients = Events.startedClients (reported ops) ∧
    (Window.run (ops ++ [.report (.poll true), .message now .tick])).ui.servers = Events.startedServers (reported ops) := by
  have hc : calls (ops ++ [.report (.poll true)]) {} = calls ops {} ++ [.poll true] := by rw [calls_append]; rfl
  have all := Events.C195_all_partial (calls ops {})
    (fun a d b e => by
      rw [← hc] at e
      obtain ⟨p, q, h1, h2⟩ := calls_split _ a b _ e (by simp)
      rw [← h2]
      rcases List.eq_nil_or_concat q with rfl | ⟨q', z, rfl⟩
      · exfalso
        have := congrArg List.getLast? h1
        simp at this
      · rw [List.concat_eq_append, ← List.cons_append, ← List.append_assoc] at h1
        exact hstart p d q' (List.append_inj_left' h1 rfl))
    (fun a b e => by
      rw [← hc] at e
      obtain ⟨p, q, h1, h2⟩ := calls_split _ a b _ e (by simp)
      rw [← h2]
      exact htick p q h1)
  rw [← hc, ← events_run] at all
  have e1 : Events.startedClients (calls ops {}) = Events.startedClients (reported ops) := filterMap_calls _ rfl ops
  have e2 : Events.startedServers (calls ops {}) = Events.startedServers (reported ops) := filterMap_calls _ rfl ops
  rw [e1, e2] at all
  obtain ⟨_, h2, h3⟩ := shown (ops ++ [.report (.poll true), .message now .tick])
  have e : ops ++ [.report (.poll true), .message now .tick] = (ops ++ [.report (.poll true)]) ++ [.message now .tick] := by simp
  have ht : (Window.run (ops ++ [.report (.poll true), .message now .tick])).events.seen = (Window.run (ops ++ [.report (.poll true)])).events.told := by
    rw [e, wrun_snoc]; rfl
  rw [h2, h3, ht]
  exact all

/-- **C267**: the line about the shutdown says `active` until the button was pressed or the router has begun to shut down and the window was
refreshed after that; from then on it counts down. -/
theorem C267_status (ops : List WOp) :
    (Window.run ops).ui.status = .active ↔
      (∀ now, WOp.message now .graceful ∉ ops) ∧ Events.Event.shuttingDown ∉ (Window.run ops).events.seen := by
  have fold : ∀ (now : Nat) (q : List Events.Event) (u : Ui), (q.foldl (Ui.event now) u).status = .active ↔ u.status = .active ∧ .shuttingDown ∉ q := by
    intro now q
    induction q with
    | nil => intro u; simp
    | cons e q ih =>
      intro u
      rw [List.foldl_cons, ih]
      cases e with
      | status c s n => simp [Ui.event]
      | shuttingDown => cases hs : u.status <;> simp [Ui.event, hs]
      | shutDown => simp [Ui.event]
  induction ops using List.reverseRecOn with
  | nil => simp [Window.run]
  | append_singleton ops o ih =>
    rw [wrun_snoc]
    cases o with
    | message now m =>
      cases m with
      | tick =>
        show (List.foldl (Ui.event now) (Window.run ops).ui (Window.run ops).events.queue).status = _ ↔ _
        rw [fold]
        refine (and_congr_left' ih).trans ?_
        simp [Window.step, readAll, and_assoc]
      | graceful =>
        constructor
        · intro h; cases h
        · intro h; exact absurd (by simp) (h.1 now)
      | _ => exact Iff.trans ih (by simp [Window.step])
    | report o =>
      by_cases h : o = .read
      · subst h; exact Iff.trans ih (by simp [Window.step])
      · have e : (Window.run ops).step (.report o) = { Window.run ops with events := (Window.run ops).events.step o } := by
          cases o <;> first | rfl | exact absurd rfl h
        rw [e]
        dsimp only
        rw [seen_step _ _ h]
        exact ih.trans (by simp)
    | taken => exact Iff.trans ih (by simp [Window.step])

theorem shutting_fold (now t : Nat) (q : List Events.Event) : ∀ u : Ui, u.status = .shuttingDown t → (q.foldl (Ui.event now) u).status = .shuttingDown t := by
  induction q with
  | nil => intro u h; exact h
  | cons e q ih =>
    intro u h
    refine ih _ ?_
    cases e with
    | status c s n => exact h
    | shuttingDown => simp only [Ui.event, h]
    | shutDown => exact h

theorem shutting_begins (now : Nat) (q : List Events.Event) : ∀ u : Ui, u.status = .active → .shuttingDown ∈ q → (q.foldl (Ui.event now) u).status = .shuttingDown now := by
  induction q with
  | nil => intro u _ h; cases h
  | cons e q ih =>
    intro u h hq
    cases e with
    | status c s n => exact ih _ h (by simpa using hq)
    | shuttingDown => exact shutting_fold now now q _ (by simp only [Ui.event, h])
    | shutDown => exact ih _ h (by simpa using hq)

/-- **C267**: the countdown begins when the button is pressed, or with the refresh that hears of the shutdown while none was shown; whatever happens
afterwards but for the button being pressed again, it goes on from there. -/
theorem C267_since (ops : List WOp) (now : Nat) :
    (Window.run (ops ++ [.message now .graceful])).ui.status = .shuttingDown now ∧
    ((Window.run ops).ui.status = .active → .shuttingDown ∈ (Window.run ops).events.queue → (Window.run (ops ++ [.message now .tick])).ui.status = .shuttingDown now) ∧
    ∀ t more, (Window.run ops).ui.status = .shuttingDown t → (∀ now', .message now' .graceful ∉ more) → (Window.run (ops ++ more)).ui.status = .shuttingDown t := by
  refine ⟨by rw [wrun_snoc]; rfl, fun h1 h2 => ?_, fun t more h hm => ?_⟩
  · rw [wrun_snoc]; exact shutting_begins now _ _ h1 h2
  · induction more using List.reverseRecOn with
    | nil => rw [List.append_nil]; exact h
    | append_singleton more o ih =>
      have ih := ih fun now' hh => hm now' (List.mem_append_left _ hh)
      rw [← List.append_assoc, wrun_snoc]
      cases o with
      | message now m =>
        cases m with
        | tick => exact shutting_fold _ _ _ _ ih
        | graceful => exact absurd (by simp) (hm now)
        | _ => exact ih
      | report o => cases o <;> exact ih
      | taken => exact ih

example := (C267_since [.message 3 .graceful] 9).2.2 3 [.report .shutdown, .message 8 .tick] (by decide +kernel) (by simp)

/-- **C266**, in part: the button leaves a notice for the event loop, unless there is one already, and there are notices only from the button; the
program ends at once with the other button, and with nothing else that happens to the window. -/
theorem C266_buttons_partial (ops : List WOp) (now : Nat) :
    (Window.run (ops ++ [.message now .graceful])).full = true ∧
    (Window.run (ops ++ [.message now .graceful])).sent = (Window.run ops).sent + (if (Window.run ops).full then 0 else 1) ∧
    (∀ o, (∀ now, o ≠ .message now .graceful) → (Window.run (ops ++ [o])).sent = (Window.run ops).sent) ∧
    ((Window.run ops).gone = true ↔ ∃ now, .message now .forceful ∈ ops) := by
  refine ⟨by rw [wrun_snoc]; rfl, ?_, fun o ho => ?_, ?_⟩
  · rw [wrun_snoc]; simp only [Window.step]; split <;> rfl
  · rw [wrun_snoc]
    cases o with
    | message now m =>
      cases m with
      | graceful => exact absurd rfl (ho now)
      | _ => rfl
    | report o => cases o <;> rfl
    | taken => rfl
  · induction ops using List.reverseRecOn with
    | nil => simp [Window.run]
    | append_singleton ops o ih =>
      rw [wrun_snoc]
      cases o with
      | message now m =>
        cases m with
        | forceful => exact ⟨fun _ => ⟨now, by simp⟩, fun _ => rfl⟩
        | _ => exact Iff.trans ih (by simp)
      | report o => cases o <;> exact Iff.trans ih (by simp)
      | taken => exact Iff.trans ih (by simp)

example : (Window.run [.message 1 .graceful, .message 2 .graceful, .taken, .message 3 .graceful]).sent = 2 := by decide +kernel

/-- The seconds that a line about the shutdown stands for. -/
def Line.left : Line → Option Nat
  | .active => none
  | .minutes m s => some (m * 60 + s)
  | .seconds s => some s
  | .now => some 0

/-- **C267**: the countdown says how much is left of ten minutes since it began, to the second, with less than sixty seconds beside the minutes,
minutes only if there is more than one, and `now` exactly when nothing is left. -/
theorem C267_countdown (since now : Nat) :
    (Status.line now (.shuttingDown since)).left = some (600 - (now - since)) ∧
    (∀ m s, Status.line now (.shuttingDown since) = .minutes m s → 1 ≤ m ∧ m ≤ 10 ∧ s < 60 ∧ 60 < m * 60 + s) ∧
    (∀ s, Status.line now (.shuttingDown since) = .seconds s → 1 ≤ s ∧ s ≤ 60) ∧
    (Status.line now (.shuttingDown since) = .now ↔ since + 600 ≤ now) := by
  simp only [Status.line]
  split
  · refine ⟨?_, ?_, (fun s h => by cases h), ?_⟩
    · simp only [Line.left]; congr 1; omega
    · intro m s h; cases h; omega
    · simp; omega
  · split
    · refine ⟨?_, (fun m s h => by cases h), (fun s h => by cases h), ?_⟩
      · simp only [Line.left]; congr 1; omega
      · simp; omega
    · refine ⟨?_, (fun m s h => by cases h), (fun s h => by cases h; omega), ?_⟩
      · simp only [Line.left]
      · simp; omega

/-- **C267**: the uptime is shown to the second, but for the first second. -/
theorem C267_uptime (t : Nat) (h : 0 < t) :
    (uptime t).1 * 3600 + (uptime t).2.1 * 60 + (uptime t).2.2 = t ∧ (uptime t).2.1 < 60 ∧ (uptime t).2.2 < 60 := by
  simp only [uptime, if_neg (show t ≠ 0 by omega)]
  omega

/-- How many bytes a unit stands for. -/
def Prefix.bytes : Prefix → Nat
  | .B => 1
  | .KB => 1000
  | .MB => 1000 ^ 2
  | .GB => 1000 ^ 3
  | .TB => 1000 ^ 4

/-- **C267**: the bandwidth is shown in the unit that goes with the number, and the number is at least one and below a thousand where there is such a unit. -/
theorem C267_unit (n d : Nat) :
    (scale n d).1 = (scale n d).2.bytes ∧ ((scale n d).2 ≠ .TB → n < 1000 * (d * (scale n d).1)) ∧
    ((scale n d).2 ≠ .B → d * (scale n d).1 ≤ n) := by
  unfold scale
  split
  · exact ⟨rfl, by simp; omega, by simp⟩
  · split
    · exact ⟨rfl, by simp; omega, by simp; omega⟩
    · split
      · exact ⟨rfl, by simp; omega, by simp; omega⟩
      · split
        · exact ⟨rfl, by simp; omega, by simp; omega⟩
        · exact ⟨rfl, by simp, by simp; omega⟩

/-- **C267**, violated: the success rate is not the percentage rounded down: of 29 tunnels out of 100 it says 28 percent. -/
theorem C267_rate_violated : ¬ ∀ built failed, 0 < built + failed → successRate built failed = built * 100 / (built + failed) := by
  intro h
  have := h 29 71 (by omega)
  revert this
  decide +kernel

/-- A router with a destination and a tunnel; the window shows both after the timer. -/
example : (Window.run [.report (.setRouters 3), .report (.start (.client "irc")), .report (.poll true), .message 5 .tick,
    .report .shutdown, .message 6 .tick]).ui = { numbers := { routers := 3 }, clients := ["irc"], status := .shuttingDown 6 } := by decide +kernel
example := C267_fresh [.report (.setRouters 3), .report (.start (.client "irc"))] 5 (by decide +kernel)
example := C267_all_partial [.report (.start (.client "irc"))] 5
  (fun p d q h => by match p, h with
    | [], _ => decide
    | [_], h => simp at h
    | _ :: _ :: _, h => simp at h)
  (fun p q h => by match p, h with
    | [], h => simp at h
    | [x], h => simp at h; rw [← h.1]; decide
    | [_, _], h => simp at h
    | _ :: _ :: _ :: _, h => simp at h)
example : Status.line 500 (.shuttingDown 10) = .minutes 1 50 ∧ uptime 3725 = (1, 2, 5) ∧ scale 2500000 1 = (1000000, .MB) ∧ successRate 3 1 = 75 := by decide +kernel

theorem round_self (m : Nat) (h : m ≠ 0) : F64.round m m 0 = ⟨2 ^ 52, -52⟩ := by
  have e : ((Nat.log2 m : Int) - (Nat.log2 m : Int) - 52) = -52 := by omega
  have hq : m * 2 ^ 52 / m = 2 ^ 52 := Nat.mul_div_cancel_left _ (by omega)
  have hr : m * 2 ^ 52 % m = 0 := Nat.mul_mod_right ..
  simp only [F64.round, h, or_self, if_false, e]
  simp [hq, hr, h]

theorem ofNat_ne (n : Nat) (h : n ≠ 0) : (F64.ofNat n).m ≠ 0 := by
  have h1 : Nat.log2 1 = 0 := by decide +kernel
  have hl : 2 ^ Nat.log2 n ≤ n := Nat.log2_self_le h
  have key : ∀ n1 d1 : Nat, 1 ≤ n1 / d1 → ∀ n2, n1 ≤ n2 → 1 ≤ n2 / d1 := fun n1 d1 h1 n2 h2 => Nat.le_trans h1 (Nat.div_le_div_right h2)
  have hq : ∀ n1 d1 : Nat, 1 ≤ n1 / d1 → ∀ k e : Int, (let p := if n1 / d1 < 2 ^ 52 then (n1 * 2, k - 1) else (n1, k)
      let q := p.1 / d1; let r := p.1 % d1; let q := if d1 < 2 * r ∨ (2 * r = d1 ∧ q % 2 = 1) then q + 1 else q
      (⟨q, p.2 + e⟩ : F64)).m ≠ 0 := by
    intro n1 d1 h1 k e
    dsimp only
    split
    · have := key n1 d1 h1 (n1 * 2) (by omega)
      split <;> dsimp only <;> omega
    · split <;> dsimp only <;> omega
  simp only [F64.ofNat, F64.round, h, Nat.one_ne_zero, or_self, if_false, h1]
  by_cases hk : (0 : Int) ≤ (Nat.log2 n : Int) - (0 : Nat) - 52
  · rw [if_pos hk]
    refine hq n (1 * 2 ^ _) ?_ _ 0
    rw [Nat.one_mul, Nat.le_div_iff_mul_le (Nat.two_pow_pos _), Nat.one_mul]
    exact Nat.le_trans (Nat.pow_le_pow_right (by omega) (by omega)) hl
  · rw [if_neg hk]
    refine hq (n * 2 ^ _) 1 ?_ _ 0
    rw [Nat.div_one]
    exact Nat.mul_pos (by omega) (Nat.two_pow_pos _)

/-- **C267**, in part: if all tunnels were built the rate is 100, and if none was it is 0. -/
theorem C267_rate_ends_partial (n : Nat) (h : 0 < n) : successRate n 0 = 100 ∧ successRate 0 n = 0 := by
  have h0 : F64.ofNat 0 = ⟨0, 0⟩ := by decide +kernel
  constructor
  · simp only [successRate, Nat.add_zero, F64.div, Int.sub_self]
    rw [if_neg (by omega), round_self _ (ofNat_ne n (by omega))]
    decide +kernel
  · simp only [successRate, Nat.zero_add, h0]
    rw [if_neg (by omega)]
    simp [F64.div, F64.round, F64.mul, F64.toNat]

end Emissary.Cli
