import Verif.Model.Listener
/-!
# C09: `STREAM ACCEPT` and `STREAM FORWARD` sockets of a SAM session
-/
namespace Emissary.Listener

set_option linter.unusedSectionVars false
set_option linter.unusedSimpArgs false
variable {σ : Type} [DecidableEq σ]

/-! ## Specification, over what the environment sees -/

/-- The client of `s` asked to accept one stream and was admitted. -/
def AdmittedAccept (tr : List (Out σ)) (s : σ) (silent : Bool) : Prop :=
  ∃ r, Out.registered (.accept s silent) (some r) ∈ tr

/-- A client asked to forward streams to `port` and was admitted. -/
def AdmittedForward (tr : List (Out σ)) (port : Nat) (silent : Bool) : Prop :=
  ∃ s r, Out.registered (.forward s port silent) (some r) ∈ tr

/-- `k` asks for `STREAM FORWARD`. -/
def IsForward : Kind σ → Prop
  | .forward .. => True
  | .accept .. => False

/-- Sockets of accept clients handed to streams, in order. -/
def handed : List (Out σ) → List (σ × Bool)
  | [] => []
  | .popped (.acceptSock s b) :: tr => (s, b) :: handed tr
  | _ :: tr => handed tr

/-- Sockets of clients that are ready: admitted silently, or told so by a status message. -/
def readied : List (Out σ) → List (σ × Bool)
  | [] => []
  | .registered (.accept s true) (some _) :: tr => (s, true) :: readied tr
  | .wroteStatus s true :: tr => (s, false) :: readied tr
  | _ :: tr => readied tr

/-- How often `s` was admitted as an accept socket. -/
def admitted (s : σ) : List (Out σ) → Nat
  | [] => 0
  | .registered (.accept s' _) (some _) :: tr => (if s' = s then 1 else 0) + admitted s tr
  | _ :: tr => admitted s tr

/-! ## Basic facts -/

theorem run_append (l : L σ) (a b : List (Op σ)) :
    run l (a ++ b) = ((run (run l a).1 b).1, (run l a).2 ++ (run (run l a).1 b).2) := by
  induction a generalizing l with
  | nil => rfl
  | cons op a ih => simp only [List.cons_append, run, ih]

theorem handed_append (a b : List (Out σ)) : handed (a ++ b) = handed a ++ handed b := by
  induction a with
  | nil => rfl
  | cons o a ih =>
    cases o with
    | popped p => cases p <;> simp [handed, ih]
    | _ => simp [handed, ih]

theorem readied_append (a b : List (Out σ)) : readied (a ++ b) = readied a ++ readied b := by
  induction a with
  | nil => rfl
  | cons o a ih =>
    cases o with
    | registered k r =>
      cases k with
      | accept s b => cases b <;> cases r <;> simp [readied, ih]
      | forward s p b => simp [readied, ih]
    | wroteStatus s ok => cases ok <;> simp [readied, ih]
    | _ => simp [readied, ih]

theorem admitted_append (s : σ) (a b : List (Out σ)) :
    admitted s (a ++ b) = admitted s a + admitted s b := by
  induction a with
  | nil => simp [admitted]
  | cons o a ih =>
    cases o with
    | registered k r =>
      cases k with
      | accept s b => cases r <;> simp [admitted, ih, Nat.add_assoc]
      | forward s p b => simp [admitted, ih]
    | _ => simp [admitted, ih]

/-- The listener forwards, is about to, or is dead. -/
def forwarding : State σ → Bool
  | .initializing (.forward ..) | .persistent .. | .poisoned => true
  | _ => false

def queue : State σ → List (σ × Bool)
  | .ephemeral ss => ss
  | _ => []

/-- Invariant over a history `tr`. -/
structure Inv (l : L σ) (tr : List (Out σ)) : Prop where
  nonempty : l.state ≠ .ephemeral []
  queued : ∀ s b, (s, b) ∈ queue l.state → AdmittedAccept tr s b
  pend : forwarding l.state = false → ∀ s ∈ l.pending, AdmittedAccept tr s false
  fwd : ∀ p b, (l.state = .initializing (.forward p b) ∨ ∃ s, l.state = .persistent s p b) →
    AdmittedForward tr p b
  count : ∀ s, (handed tr).countP (fun x => x.1 = s) + (queue l.state).countP (fun x => x.1 = s) +
    (if forwarding l.state then 0 else l.pending.count s) ≤ admitted s tr

theorem inv_init : Inv (init : L σ) [] := by
  constructor <;> simp [init, queue, forwarding, handed, admitted]

theorem AdmittedAccept.mono {tr tr' : List (Out σ)} {s : σ} {b : Bool}
    (h : AdmittedAccept tr s b) : AdmittedAccept (tr ++ tr') s b := by
  obtain ⟨r, h⟩ := h; exact ⟨r, by simp [h]⟩

theorem AdmittedForward.mono {tr tr' : List (Out σ)} {p : Nat} {b : Bool}
    (h : AdmittedForward tr p b) : AdmittedForward (tr ++ tr') p b := by
  obtain ⟨s, r, h⟩ := h; exact ⟨s, r, by simp [h]⟩

theorem inv_mono {l : L σ} {tr : List (Out σ)} (o : Out σ) (h : Inv l tr)
    (hh : handed [o] = []) : Inv l (tr ++ [o]) := by
  refine ⟨h.nonempty, fun s b hs => (h.queued s b hs).mono, fun hf s hs => (h.pend hf s hs).mono,
    fun p b hp => (h.fwd p b hp).mono, fun s => ?_⟩
  have := h.count s
  rw [handed_append, admitted_append, hh]; simp only [List.append_nil]; omega

theorem inv_pop {l : L σ} {tr : List (Out σ)} (h : Inv l tr) :
    Inv (popSocket l).1 (tr ++ [.popped (popSocket l).2]) := by
  obtain ⟨st, pend, a⟩ := l
  cases st with
  | uninit => exact inv_mono _ h rfl
  | initializing k => exact inv_mono _ h rfl
  | poisoned => exact inv_mono _ h rfl
  | persistent s p b => exact inv_mono _ h rfl
  | ephemeral ss =>
    match ss with
    | [] => exact absurd rfl h.nonempty
    | [(s, b)] =>
      refine ⟨by simp [popSocket], by simp [popSocket, queue], fun _ s hs => (h.pend rfl s hs).mono,
        by simp [popSocket], fun x => ?_⟩
      have := h.count x
      simp only [popSocket, queue, forwarding, handed_append, admitted_append, handed, admitted,
        List.countP_append, List.countP_cons, List.countP_nil] at *
      simp only [Bool.false_eq_true, if_false] at *
      omega
    | (s, b) :: y :: rest =>
      refine ⟨by simp [popSocket], fun x c hx => (h.queued x c ?_).mono,
        fun _ s hs => (h.pend rfl s hs).mono, by simp [popSocket], fun x => ?_⟩
      · simp only [popSocket, queue] at *; exact List.mem_cons_of_mem _ hx
      have := h.count x
      simp only [popSocket, queue, forwarding, handed_append, admitted_append, handed, admitted,
        List.countP_append, List.countP_cons, List.countP_nil] at *
      simp only [Bool.false_eq_true, if_false] at *
      omega

theorem inv_register {l : L σ} {tr : List (Out σ)} (k : Kind σ) (h : Inv l tr) :
    Inv (register l k).1 (tr ++ [.registered k (register l k).2]) := by
  obtain ⟨st, pend, a⟩ := l
  have hq := h.queued
  have hp := h.pend
  have hc := h.count
  simp only at hq hp hc
  cases k with
  | forward s port silent =>
    cases st with
    | uninit =>
      refine ⟨by simp [register, validate], by simp [register, validate, queue],
        by simp [register, validate, forwarding], ?_, fun x => ?_⟩
      · intro p b hpb
        simp only [register, validate, if_true, State.initializing.injEq, PKind.forward.injEq,
          reduceCtorEq, exists_false, or_false] at hpb
        obtain ⟨rfl, rfl⟩ := hpb
        exact ⟨s, false, by simp [register, validate]⟩
      · have := hc x
        simp only [register, validate, queue, forwarding, handed_append, admitted_append, handed, admitted,
          if_true, List.append_nil, List.countP_nil] at *
        omega
    | _ => simp only [register, validate, Bool.false_eq_true, if_false]; exact inv_mono _ h rfl
  | accept s silent =>
    cases st with
    | poisoned => simp only [register, validate, Bool.false_eq_true, if_false]; exact inv_mono _ h rfl
    | persistent => simp only [register, validate, Bool.false_eq_true, if_false]; exact inv_mono _ h rfl
    | uninit =>
      cases silent
      all_goals
        refine ⟨by simp [register, validate], ?_, ?_, by simp [register, validate], fun x => ?_⟩
        · simp [register, validate, queue, AdmittedAccept]
        · intro _ x hx
          simp only [register, validate, if_true] at hx
          try simp only [List.mem_append, List.mem_singleton] at hx
          first
            | exact (hp rfl x hx).mono
            | (rcases hx with hx | rfl
               · exact (hp rfl x hx).mono
               · exact ⟨false, by simp [register, validate]⟩)
        · have := hc x
          simp only [register, validate, queue, forwarding, handed_append, admitted_append, handed, admitted,
            if_true, List.append_nil, List.countP_nil, List.countP_cons, List.count_append, List.count_cons,
            List.count_nil, beq_iff_eq, decide_eq_true_eq, Bool.false_eq_true, if_false] at *
          omega
    | ephemeral ss =>
      cases silent
      all_goals
        refine ⟨?_, ?_, ?_, by simp [register, validate], fun x => ?_⟩
        · first
            | exact h.nonempty
            | simp [register, validate]
        · intro x b hx
          simp only [register, validate, if_true, queue] at hx
          try simp only [List.mem_append, List.mem_singleton, Prod.mk.injEq] at hx
          first
            | exact (hq x b hx).mono
            | (rcases hx with hx | ⟨rfl, rfl⟩
               · exact (hq x b hx).mono
               · exact ⟨true, by simp [register, validate]⟩)
        · intro _ x hx
          simp only [register, validate, if_true] at hx
          try simp only [List.mem_append, List.mem_singleton] at hx
          first
            | exact (hp rfl x hx).mono
            | (rcases hx with hx | rfl
               · exact (hp rfl x hx).mono
               · exact ⟨false, by simp [register, validate]⟩)
        · have := hc x
          simp only [register, validate, queue, forwarding, handed_append, admitted_append, handed, admitted,
            if_true, List.append_nil, List.countP_nil, List.countP_cons, List.countP_append, List.count_append,
            List.count_cons,
            List.count_nil, beq_iff_eq, decide_eq_true_eq, Bool.false_eq_true, if_false] at *
          omega
    | initializing k =>
      cases k with
      | forward p b => simp only [register, validate, Bool.false_eq_true, if_false]; exact inv_mono _ h rfl
      | accept =>
      cases silent
      all_goals
        refine ⟨by simp [register, validate], ?_, ?_, by simp [register, validate], fun x => ?_⟩
        · simp [register, validate, queue, AdmittedAccept]
        · intro _ x hx
          simp only [register, validate, if_true] at hx
          try simp only [List.mem_append, List.mem_singleton] at hx
          first
            | exact (hp rfl x hx).mono
            | (rcases hx with hx | rfl
               · exact (hp rfl x hx).mono
               · exact ⟨false, by simp [register, validate]⟩)
        · have := hc x
          simp only [register, validate, queue, forwarding, handed_append, admitted_append, handed, admitted,
            if_true, List.append_nil, List.countP_nil, List.countP_cons, List.count_append, List.count_cons,
            List.count_nil, beq_iff_eq, decide_eq_true_eq, Bool.false_eq_true, if_false] at *
          omega

theorem inv_wrote {l : L σ} {tr : List (Out σ)} (s : σ) (ok : Bool) (h : Inv l tr) :
    Inv (wrote l s ok) (tr ++ [if s ∈ l.pending then .wroteStatus s ok else .idle]) := by
  by_cases hm : s ∈ l.pending
  · rw [if_pos hm]
    obtain ⟨st, pend, a⟩ := l
    simp only at hm
    have hq := h.queued
    have hp := h.pend
    have hc := h.count
    simp only at hq hp hc
    have he : ∀ x, (pend.erase s).count x + (if s = x then 1 else 0) = pend.count x := by
      intro x
      have hpos : 0 < pend.count s := List.count_pos_iff.mpr hm
      by_cases hx : s = x
      · subst hx; rw [List.count_erase_self]; simp only [if_true]; omega
      · rw [List.count_erase_of_ne (Ne.symm hx)]; simp [hx]
    cases ok
    · refine ⟨by simpa [wrote, hm] using h.nonempty, fun x b hx => ?_, fun hf x hx => ?_, fun p b hp => ?_,
        fun x => ?_⟩
      · simp only [wrote, hm, if_true, Bool.false_eq_true, if_false] at hx; exact (hq x b hx).mono
      · simp only [wrote, hm, if_true, Bool.false_eq_true, if_false] at hx hf
        exact (hp hf x (List.mem_of_mem_erase hx)).mono
      · simp only [wrote, hm, if_true, Bool.false_eq_true, if_false] at hp; exact (h.fwd p b hp).mono
      · have := hc x
        have := he x
        simp only [wrote, hm, if_true, handed_append, admitted_append, handed, admitted, List.append_nil] at *
        simp only [Bool.false_eq_true, if_false] at *
        cases hf : forwarding st
        · simp only [hf, Bool.false_eq_true, if_false] at *; omega
        · simp only [hf, if_true] at *; omega
    · cases st with
      | poisoned =>
        refine ⟨by simp [wrote, hm], by simp [wrote, hm, queue], by simp [wrote, hm, forwarding],
          by simp [wrote, hm], fun x => ?_⟩
        have := hc x
        simp [wrote, hm, queue, forwarding, handed_append, admitted_append, handed, admitted] at *
        omega
      | persistent =>
        refine ⟨by simp [wrote, hm], by simp [wrote, hm, queue], by simp [wrote, hm, forwarding],
          by simp [wrote, hm], fun x => ?_⟩
        have := hc x
        simp [wrote, hm, queue, forwarding, handed_append, admitted_append, handed, admitted] at *
        omega
      | uninit =>
        refine ⟨by simp [wrote, hm], ?_, ?_, by simp [wrote, hm], fun x => ?_⟩
        · intro x b hx
          simp only [wrote, hm, if_true, queue, List.mem_singleton, Prod.mk.injEq] at hx
          obtain ⟨rfl, rfl⟩ := hx
          exact (hp rfl _ hm).mono
        · intro _ x hx
          simp only [wrote, hm, if_true] at hx
          exact (hp rfl x (List.mem_of_mem_erase hx)).mono
        · have := hc x
          have := he x
          simp only [wrote, hm, queue, forwarding, handed_append, admitted_append, handed, admitted,
            if_true, List.append_nil, List.countP_nil, List.countP_cons, List.countP_append,
            beq_iff_eq, decide_eq_true_eq, Bool.false_eq_true, if_false] at *
          omega
      | ephemeral ss =>
        refine ⟨by simp [wrote, hm], ?_, ?_, by simp [wrote, hm], fun x => ?_⟩
        · intro x b hx
          simp only [wrote, hm, if_true, queue, List.mem_append, List.mem_singleton, Prod.mk.injEq] at hx
          rcases hx with hx | ⟨rfl, rfl⟩
          · exact (hq x b hx).mono
          · exact (hp rfl _ hm).mono
        · intro _ x hx
          simp only [wrote, hm, if_true] at hx
          exact (hp rfl x (List.mem_of_mem_erase hx)).mono
        · have := hc x
          have := he x
          simp only [wrote, hm, queue, forwarding, handed_append, admitted_append, handed, admitted,
            if_true, List.append_nil, List.countP_nil, List.countP_cons, List.countP_append,
            beq_iff_eq, decide_eq_true_eq, Bool.false_eq_true, if_false] at *
          omega
      | initializing k =>
        cases k with
        | accept =>
          refine ⟨by simp [wrote, hm], ?_, ?_, by simp [wrote, hm], fun x => ?_⟩
          · intro x b hx
            simp only [wrote, hm, if_true, queue, List.mem_singleton, Prod.mk.injEq] at hx
            obtain ⟨rfl, rfl⟩ := hx
            exact (hp rfl _ hm).mono
          · intro _ x hx
            simp only [wrote, hm, if_true] at hx
            exact (hp rfl x (List.mem_of_mem_erase hx)).mono
          · have := hc x
            have := he x
            simp only [wrote, hm, queue, forwarding, handed_append, admitted_append, handed, admitted,
              if_true, List.append_nil, List.countP_nil, List.countP_cons, List.countP_append,
              beq_iff_eq, decide_eq_true_eq, Bool.false_eq_true, if_false] at *
            omega
        | forward p b =>
          refine ⟨by simp [wrote, hm], by simp [wrote, hm, queue], by simp [wrote, hm, forwarding], ?_, fun x => ?_⟩
          · intro p' b' hpb
            simp only [wrote, hm, if_true, reduceCtorEq, false_or, State.persistent.injEq] at hpb
            obtain ⟨_, _, rfl, rfl⟩ := hpb
            exact (h.fwd p b (Or.inl rfl)).mono
          · have := hc x
            simp [wrote, hm, queue, forwarding, handed_append, admitted_append, handed, admitted] at *
            omega
  · simp only [wrote, hm, if_false]
    exact inv_mono _ h rfl

theorem inv_step {l : L σ} {tr : List (Out σ)} (op : Op σ) (h : Inv l tr) :
    Inv (step l op).1 (tr ++ [(step l op).2]) := by
  cases op with
  | register k => exact inv_register k h
  | wrote s ok => exact inv_wrote s ok h
  | pop => exact inv_pop h

theorem inv_run {l : L σ} {tr : List (Out σ)} (h : Inv l tr) (ops : List (Op σ)) :
    Inv (run l ops).1 (tr ++ (run l ops).2) := by
  induction ops generalizing l tr with
  | nil => simpa [run] using h
  | cons op ops ih =>
    have := ih (inv_step op h)
    simpa [run] using this

theorem reach (ops : List (Op σ)) : Inv (run (init : L σ) ops).1 (run init ops).2 := by
  simpa using inv_run (inv_init (σ := σ)) ops

/-! ## Theorems -/

/-- A stream is handed only the socket of a client that was admitted as an accept client, with the
silence setting it asked for, or a connection to the port of an admitted forward client. -/
theorem C09_handed_sockets_were_admitted (ops : List (Op σ)) :
    let l := run (init : L σ) ops
    (∀ l' s b, popSocket l.1 = (l', .acceptSock s b) → AdmittedAccept l.2 s b) ∧
    (∀ l' p b, popSocket l.1 = (l', .forwardTo p b) → AdmittedForward l.2 p b) := by
  have h := reach ops
  generalize run (init : L σ) ops = l at *
  obtain ⟨⟨st, pend, a⟩, tr⟩ := l
  refine ⟨fun l' s b hp => ?_, fun l' p b hp => ?_⟩
  · cases st with
    | ephemeral ss =>
      match ss with
      | [] => simp [popSocket] at hp
      | [x] => simp [popSocket] at hp; exact h.queued s b (by obtain ⟨x1, x2⟩ := x; simp [queue] at hp ⊢; simp [hp.2])
      | x :: y :: r => simp [popSocket] at hp; exact h.queued s b (by obtain ⟨x1, x2⟩ := x; simp [queue] at hp ⊢; simp [hp.2])
    | _ => simp [popSocket] at hp
  · cases st with
    | ephemeral ss =>
      match ss with
      | [] => simp [popSocket] at hp
      | [x] => simp [popSocket] at hp
      | x :: y :: r => simp [popSocket] at hp
    | persistent s p' b' =>
      simp [popSocket] at hp
      exact h.fwd p b (Or.inr ⟨s, by simp [hp.2]⟩)
    | _ => simp [popSocket] at hp

/-- An accept socket serves at most as many streams as it was admitted for: a client that sends one
`STREAM ACCEPT` gets at most one stream. -/
theorem C09_accept_serves_one_stream (ops : List (Op σ)) (s : σ) :
    (handed (run (init : L σ) ops).2).countP (fun x => x.1 = s) ≤ admitted s (run init ops).2 := by
  have := (reach ops).count s
  omega

/-- Looking for a socket never panics. -/
theorem C09_pop_never_panics (ops : List (Op σ)) (l' : L σ) :
    popSocket (run (init : L σ) ops).1 ≠ (l', .panic) := by
  have h := (reach ops).nonempty
  generalize (run (init : L σ) ops).1 = l at *
  obtain ⟨st, pend, a⟩ := l
  intro hp
  cases st with
  | ephemeral ss =>
    match ss with
    | [] => exact h rfl
    | [x] => simp [popSocket] at hp
    | x :: y :: r => simp [popSocket] at hp
  | _ => simp [popSocket] at hp

theorem forwarding_stays {l : L σ} (hf : forwarding l.state = true) (ops : List (Op σ)) :
    forwarding (run l ops).1.state = true ∧ handed (run l ops).2 = [] ∧
    ∀ k r, Out.registered k r ∈ (run l ops).2 → r = none := by
  induction ops generalizing l with
  | nil => simp [run, hf, handed]
  | cons op ops ih =>
    have key : forwarding (step l op).1.state = true ∧ handed [(step l op).2] = [] ∧
        ∀ k r, (step l op).2 = .registered k r → r = none := by
      obtain ⟨st, pend, a⟩ := l
      cases op with
      | register k =>
        have : validate st k = false := by
          cases st with
          | initializing k' => cases k' <;> cases k <;> simp_all [forwarding, validate]
          | _ => cases k <;> simp_all [forwarding, validate]
        simp only [step, register, this, Bool.false_eq_true, if_false]
        exact ⟨hf, rfl, by simp⟩
      | wrote s ok =>
        refine ⟨?_, ?_, ?_⟩
        · simp only [step, wrote]
          split
          · cases ok
            · exact hf
            · cases st with
              | initializing k' => cases k' <;> simp_all [forwarding]
              | _ => simp_all [forwarding]
          · exact hf
        · simp only [step]; split <;> rfl
        · intro k r; simp only [step]; split <;> simp
      | pop =>
        cases st with
        | ephemeral ss => simp [forwarding] at hf
        | _ => exact ⟨hf, rfl, by simp [step]⟩
    obtain ⟨k1, k2, k3⟩ := key
    obtain ⟨i1, i2, i3⟩ := ih k1
    refine ⟨i1, ?_, ?_⟩
    · show handed ([(step l op).2] ++ (run (step l op).1 ops).2) = []
      rw [handed_append, k2, i2]; rfl
    · intro k r hm
      simp only [run, List.mem_cons] at hm
      rcases hm with hm | hm
      · exact k3 k r hm.symm
      · exact i3 k r hm

/-- Once a forward client is admitted, every later accept or forward request is refused and no accept
socket is handed out any more; and it is admitted only when no ready accept socket is waiting. -/
theorem C09_forward_excludes_accept (pre post : List (Op σ)) (s : σ) (port : Nat) (silent r : Bool)
    (h : (step (run (init : L σ) pre).1 (.register (.forward s port silent))).2 =
      .registered (.forward s port silent) (some r)) :
    let tail := run (step (run (init : L σ) pre).1 (.register (.forward s port silent))).1 post
    queue (run (init : L σ) pre).1.state = [] ∧ handed tail.2 = [] ∧
    ∀ k r', Out.registered k r' ∈ tail.2 → r' = none := by
  generalize (run (init : L σ) pre).1 = l at *
  obtain ⟨st, pend, a⟩ := l
  have : st = .uninit := by
    cases st with
    | initializing k => cases k <;> simp [step, register, validate] at h
    | _ => first | rfl | simp [step, register, validate] at h
  subst this
  refine ⟨rfl, ?_⟩
  obtain ⟨_, h2, h3⟩ := forwarding_stays (l := (step ⟨.uninit, pend, a⟩ (.register (.forward s port silent))).1)
    (by simp [step, register, validate, forwarding]) post
  exact ⟨h2, h3⟩

/-- A refused request changes nothing. -/
theorem C09_refused_request_changes_nothing (l l' : L σ) (k : Kind σ)
    (h : register l k = (l', none)) : l' = l := by
  obtain ⟨st, pend, a⟩ := l
  by_cases hv : validate st k = true
  · cases st <;> cases k <;> simp [validate] at hv
    all_goals (rename_i b; try cases b)
    all_goals try simp [register, validate] at h
    all_goals (rename_i k' _; cases k' <;> simp_all [register, validate])
  · simp only [register, hv] at h
    simp at h
    exact h.symm

/-- Nobody asks for forwarding in `ops`. -/
def NoForward (ops : List (Op σ)) : Prop := ∀ k, Op.register k ∈ ops → ¬ IsForward k

theorem fifo_step {l : L σ} {tr : List (Out σ)} (op : Op σ) (hno : NoForward [op])
    (hf : forwarding l.state = false) (hn : l.state ≠ .ephemeral [])
    (h : readied tr = handed tr ++ queue l.state) :
    forwarding (step l op).1.state = false ∧ (step l op).1.state ≠ .ephemeral [] ∧
    readied (tr ++ [(step l op).2]) = handed (tr ++ [(step l op).2]) ++ queue (step l op).1.state := by
  obtain ⟨st, pend, a⟩ := l
  simp only at hf hn h
  rw [readied_append, handed_append, h]
  cases op with
  | register k =>
    cases k with
    | forward s p b => exact absurd (show IsForward (Kind.forward s p b) from trivial) (hno _ (by simp))
    | accept s b =>
      cases st with
      | initializing k => cases k <;> cases b <;> simp_all [step, register, validate, forwarding, queue, readied, handed]
      | _ => cases b <;> simp_all [step, register, validate, forwarding, queue, readied, handed]
  | wrote s ok =>
    by_cases hm : s ∈ pend
    · cases st with
      | initializing k => cases k <;> cases ok <;> simp_all [step, wrote, forwarding, queue, readied, handed]
      | _ => cases ok <;> simp_all [step, wrote, forwarding, queue, readied, handed]
    · simp_all [step, wrote, readied, handed]
  | pop =>
    cases st with
    | ephemeral ss =>
      match ss with
      | [] => exact absurd rfl hn
      | [(s, b)] => simp [step, popSocket, forwarding, queue, readied, handed]
      | (s, b) :: y :: r => simp [step, popSocket, forwarding, queue, readied, handed]
    | initializing k => cases k <;> simp_all [step, popSocket, forwarding, queue, readied, handed]
    | _ => simp_all [step, popSocket, forwarding, queue, readied, handed]

theorem fifo_run {l : L σ} {tr : List (Out σ)} (ops : List (Op σ)) (hno : NoForward ops)
    (hf : forwarding l.state = false) (hn : l.state ≠ .ephemeral [])
    (h : readied tr = handed tr ++ queue l.state) :
    forwarding (run l ops).1.state = false ∧ 
    readied (tr ++ (run l ops).2) = handed (tr ++ (run l ops).2) ++ queue (run l ops).1.state := by
  induction ops generalizing l tr with
  | nil => simpa [run] using ⟨hf, h⟩
  | cons op ops ih =>
    obtain ⟨a1, a2, a3⟩ := fifo_step op (fun k hk => hno k (by simp only [List.mem_singleton] at hk; simp [hk])) hf hn h
    have := ih (fun k hk => hno k (by simp [hk])) a1 a2 a3
    simpa [run] using this

/-- Without forwarding, ready accept sockets serve inbound streams first come, first served: those handed out are a
prefix of those that became ready, a lookup finds nothing only when all of them have been used, and the
first unused one otherwise. -/
theorem C09_accepts_served_in_order (ops : List (Op σ)) (hno : NoForward ops) :
    let r := run (init : L σ) ops
    (∀ l', popSocket r.1 = (l', .nothing) → handed r.2 = readied r.2) ∧
    (∀ l' s b, popSocket r.1 = (l', .acceptSock s b) → ∃ rest, readied r.2 = handed r.2 ++ (s, b) :: rest) ∧
    handed r.2 <+: readied r.2 := by
  have h := fifo_run (l := (init : L σ)) (tr := []) ops hno rfl (by simp [init]) rfl
  simp only [List.nil_append] at h
  generalize run (init : L σ) ops = r at *
  obtain ⟨⟨st, pend, a⟩, tr⟩ := r
  obtain ⟨hf, h⟩ := h
  refine ⟨fun l' hp => ?_, fun l' s b hp => ?_, ⟨_, h.symm⟩⟩
  · cases st with
    | ephemeral ss =>
      match ss with
      | [] => simp [popSocket] at hp
      | [x] => simp [popSocket] at hp
      | x :: y :: r => simp [popSocket] at hp
    | _ => simp_all [queue]
  · cases st with
    | ephemeral ss =>
      match ss with
      | [] => simp [popSocket] at hp
      | [(x1, x2)] => simp [popSocket] at hp; exact ⟨[], by rw [h]; simp [queue, hp.2]⟩
      | (x1, x2) :: y :: r => simp [popSocket] at hp; exact ⟨y :: r, by rw [h]; simp [queue, hp.2]⟩
    | _ => simp [popSocket] at hp

/-- A forward client admitted while no accept client is still being answered gets every later stream
once it has been told so, whatever else is requested.  (Partial: the proviso is needed, see
`C09_late_accept_kills_listener_violated`.) -/
theorem C09_forward_gets_every_stream_partial (pre : List (Op σ)) (s : σ) (port : Nat) (silent : Bool)
    (hst : (run (init : L σ) pre).1.state = .uninit) (hp : (run (init : L σ) pre).1.pending = [])
    (hna : (run (init : L σ) pre).1.asserted = false)
    (post : List (Op σ)) :
    let l := (run (run (init : L σ) pre).1 ([.register (.forward s port silent), .wrote s true] ++ post)).1
    l.asserted = false ∧ ∃ l', popSocket l = (l', .forwardTo port silent) := by
  generalize (run (init : L σ) pre).1 = l0 at *
  obtain ⟨st, pend, a⟩ := l0
  simp only at hst hp hna
  subst hst hp hna
  have h0 : (run (⟨.uninit, [], false⟩ : L σ) [.register (.forward s port silent), .wrote s true]).1 =
      ⟨.persistent s port silent, [], false⟩ := by
    simp [run, step, register, validate, wrote]
  rw [run_append, h0]
  have key : ∀ post : List (Op σ), (run (⟨.persistent s port silent, [], false⟩ : L σ) post).1 =
      ⟨.persistent s port silent, [], false⟩ := by
    intro post
    induction post with
    | nil => rfl
    | cons op ops ih =>
      have : (step (⟨.persistent s port silent, [], false⟩ : L σ) op).1 = ⟨.persistent s port silent, [], false⟩ := by
        cases op with
        | register k => cases k <;> simp [step, register, validate]
        | wrote s' ok => simp [step, wrote]
        | pop => rfl
      simp only [run]; rw [this, ih]
  rw [key]
  exact ⟨rfl, _, rfl⟩

/-- A dead listener: whatever happens, every request is refused and no stream gets a socket. -/
def Dead (l : L σ) : Prop :=
  ∀ ops : List (Op σ), (∀ k r, Out.registered k r ∈ (run l ops).2 → r = none) ∧
    (∀ p, Out.popped p ∈ (run l ops).2 → p = .nothing)

theorem dead_of {l : L σ} (hs : l.state = .poisoned ∨ (∃ p b, l.state = .initializing (.forward p b)) ∧ l.pending = []) :
    Dead l := by
  intro ops
  induction ops generalizing l with
  | nil => simp [run]
  | cons op ops ih =>
    have hs' : (step l op).1.state = .poisoned ∨
        (∃ p b, (step l op).1.state = .initializing (.forward p b)) ∧ (step l op).1.pending = [] := by
      obtain ⟨st, pend, a⟩ := l
      rcases hs with hs | ⟨⟨p, b, hs⟩, hp⟩
      · simp only at hs; subst hs
        left
        cases op with
        | register k => cases k <;> simp [step, register, validate]
        | wrote s' ok => simp only [step, wrote]; split <;> (try cases ok) <;> simp
        | pop => rfl
      · simp only at hs hp; subst hs hp
        right
        cases op with
        | register k => cases k <;> simp [step, register, validate]
        | wrote s' ok => simp [step, wrote]
        | pop => simp [step, popSocket]
    obtain ⟨i1, i2⟩ := ih hs'
    refine ⟨fun k r hm => ?_, fun p hm => ?_⟩
    · simp only [run, List.mem_cons] at hm
      rcases hm with hm | hm
      · have hff : forwarding l.state = true := by
          rcases hs with hs | ⟨⟨p, b, hs⟩, _⟩ <;> simp [hs, forwarding]
        have := (forwarding_stays hff [op]).2.2 k r (by simp [run, hm])
        exact this
      · exact i1 k r hm
    · simp only [run, List.mem_cons] at hm
      rcases hm with hm | hm
      · cases op with
        | register k => simp [step] at hm
        | wrote s' ok => simp only [step] at hm; split at hm <;> simp at hm
        | pop =>
          simp only [step, Out.popped.injEq] at hm
          rcases hs with hs | ⟨⟨p, b, hs⟩, _⟩ <;> simp [popSocket, hs] at hm <;> exact hm
      · exact i2 p hm

/-- The full claim fails: an accept client is still being answered while a second one is admitted
silently and used up, then a forward client is admitted.  Both the first accept client and the
forward client are told that their request succeeded, and from then on the listener is dead
(in debug builds it panics). -/
theorem C09_late_accept_kills_listener_violated (a b f : σ) (port : Nat) (silent : Bool) :
    let ops := [Op.register (.accept a false), .register (.accept b true), .pop,
      .register (.forward f port silent), .wrote a true, .wrote f true]
    let r := run (init : L σ) ops
    r.2 = [.registered (.accept a false) (some false), .registered (.accept b true) (some true),
      .popped (.acceptSock b true), .registered (.forward f port silent) (some false),
      .wroteStatus a true, .wroteStatus f true] ∧ r.1.asserted = true ∧ Dead r.1 := by
  have e : (run (init : L σ) [Op.register (.accept a false), .register (.accept b true), .pop,
      .register (.forward f port silent), .wrote a true, .wrote f true]) =
      (⟨.poisoned, [], true⟩, [.registered (.accept a false) (some false), .registered (.accept b true) (some true),
      .popped (.acceptSock b true), .registered (.forward f port silent) (some false),
      .wroteStatus a true, .wroteStatus f true]) := by
    simp [run, step, register, validate, popSocket, wrote, init]
  simp only [e]
  exact ⟨trivial, trivial, dead_of (Or.inl rfl)⟩

/-- A forward client that disconnects before the answer reaches it leaves the listener dead. -/
theorem C09_failed_forward_kills_listener_violated (f : σ) (port : Nat) (silent : Bool) :
    Dead (run (init : L σ) [.register (.forward f port silent), .wrote f false]).1 := by
  apply dead_of
  right
  simp [run, step, register, validate, wrote, init]

/-- An accept client that disconnects before the answer reaches it makes the listener refuse every
forward request until a further accept client has been served. -/
theorem C09_failed_accept_blocks_forward_violated (a f : σ) (port : Nat) (silent : Bool) :
    (step (run (init : L σ) [.register (.accept a false), .wrote a false]).1
      (.register (.forward f port silent))).2 = .registered (.forward f port silent) none := by
  simp [run, step, register, validate, wrote, init]

/-- Non-vacuity: two accept clients, one silent, served in the order they became ready. -/
example : handed (run (init : L Nat) [.register (.accept 1 false), .register (.accept 2 true), .wrote 1 true,
    .pop, .pop]).2 = [(2, true), (1, false)] := by decide

/-- Non-vacuity of the partial theorem: the forward client is admitted after an accept client was served. -/
example : (run (init : L Nat) [.register (.accept 1 false), .wrote 1 true, .pop]).1.pending = [] := by decide

end Emissary.Listener
