import Verif.Model.SamServer
import Verif.Props.SamServer
/-!
# Sessions that wait for tunnels and datagrams for clients

* C172: a session is not started before it has an inbound and an outbound tunnel.
* C173: datagrams reach the client's socket in order.
-/
namespace Emissary.SamServer

/-! ## Specification -/

/-- After these events there is an inbound tunnel with this lease: it was built with it and has not been built anew or expired since. -/
def InUp {L : Type} (evs : List (Event L)) (t : Nat) (l : L) : Prop :=
  ∃ a b, evs = a ++ .inBuilt t l :: b ∧ (∀ l', .inBuilt t l' ∉ b) ∧ .inExpired t ∉ b

/-- After these events there is an outbound tunnel: it was built and has not expired since. -/
def OutUp {L : Type} (evs : List (Event L)) (t : Nat) : Prop :=
  ∃ a b, evs = a ++ .outBuilt t :: b ∧ .outExpired t ∉ b

/-! ## Lemmas -/

theorem snoc_split {α : Type} {l a b : List α} {x y : α} (h : l ++ [x] = a ++ y :: b) : (b = [] ∧ x = y ∧ l = a) ∨ ∃ b', b = b' ++ [x] ∧ l = a ++ y :: b' := by
  rcases List.eq_nil_or_concat b with rfl | ⟨b', z, rfl⟩
  · obtain ⟨h1, h2⟩ := List.append_inj' h rfl
    exact .inl ⟨rfl, (List.cons.inj h2).1, h1⟩
  · rw [List.concat_eq_append, ← List.cons_append, ← List.append_assoc] at h
    obtain ⟨h1, h2⟩ := List.append_inj' h rfl
    rw [List.concat_eq_append]
    exact .inr ⟨b', by rw [(List.cons.inj h2).1], h1⟩

theorem inUp_snoc {L : Type} (evs : List (Event L)) (e : Event L) (t : Nat) (l : L) :
    InUp (evs ++ [e]) t l ↔ e = .inBuilt t l ∨ (InUp evs t l ∧ (∀ l', e ≠ .inBuilt t l') ∧ e ≠ .inExpired t) := by
  constructor
  · rintro ⟨a, b, h, h1, h2⟩
    rcases snoc_split h with ⟨rfl, he, _⟩ | ⟨b', rfl, he⟩
    · exact .inl he
    · simp only [List.mem_append, List.mem_singleton, not_or] at h1 h2
      exact .inr ⟨⟨a, b', he, fun l' => (h1 l').1, h2.1⟩, fun l' e => (h1 l').2 e.symm, fun e => h2.2 e.symm⟩
  · rintro (rfl | ⟨⟨a, b, rfl, h1, h2⟩, h3, h4⟩)
    · exact ⟨evs, [], rfl, fun _ => List.not_mem_nil, List.not_mem_nil⟩
    · refine ⟨a, b ++ [e], by simp, ?_, ?_⟩
      · intro l'
        simp only [List.mem_append, List.mem_singleton, not_or]
        exact ⟨h1 l', fun e => h3 l' e.symm⟩
      · simp only [List.mem_append, List.mem_singleton, not_or]
        exact ⟨h2, fun e => h4 e.symm⟩

theorem outUp_snoc {L : Type} (evs : List (Event L)) (e : Event L) (t : Nat) :
    OutUp (evs ++ [e]) t ↔ e = .outBuilt t ∨ (OutUp evs t ∧ e ≠ .outExpired t) := by
  constructor
  · rintro ⟨a, b, h, h2⟩
    rcases snoc_split h with ⟨rfl, he, _⟩ | ⟨b', rfl, he⟩
    · exact .inl he
    · simp only [List.mem_append, List.mem_singleton, not_or] at h2
      exact .inr ⟨⟨a, b', he, h2.1⟩, fun e => h2.2 e.symm⟩
  · rintro (rfl | ⟨⟨a, b, rfl, h2⟩, h4⟩)
    · exact ⟨evs, [], rfl, List.not_mem_nil⟩
    · refine ⟨a, b ++ [e], by simp, ?_⟩
      simp only [List.mem_append, List.mem_singleton, not_or]
      exact ⟨h2, fun e => h4 e.symm⟩

/-- The tunnels are those that are up. -/
def Tracks {L : Type} (evs : List (Event L)) (t : Tunnels L) : Prop :=
  (∀ n l, t.inbound.get n = some l ↔ InUp evs n l) ∧ (∀ n, n ∈ t.outbound ↔ OutUp evs n) ∧ t.inbound.Ok

theorem Tracks.step {L : Type} {evs : List (Event L)} {t : Tunnels L} (h : Tracks evs t) (e : Event L) : Tracks (evs ++ [e]) (t.step e) := by
  obtain ⟨h1, h2, h3⟩ := h
  unfold Tunnels.step
  cases e with
  | inBuilt n l =>
    refine ⟨?_, ?_, AMap.ok_put h3 _ _⟩
    · intro m k
      rw [AMap.get_put, inUp_snoc]
      split
      · grind
      · grind
    · intro m
      rw [outUp_snoc]
      grind
  | outBuilt n =>
    refine ⟨?_, ?_, h3⟩
    · intro m k
      rw [inUp_snoc]
      grind
    · intro m
      rw [outUp_snoc, mem_ins]
      grind
  | inExpired n =>
    refine ⟨?_, ?_, AMap.ok_del h3 _⟩
    · intro m k
      rw [AMap.get_del, inUp_snoc]
      split <;> grind
    · intro m
      rw [outUp_snoc]
      grind
  | outExpired n =>
    refine ⟨?_, ?_, h3⟩
    · intro m k
      rw [inUp_snoc]
      grind
    · intro m
      rw [outUp_snoc, mem_rem]
      grind
  | other =>
    refine ⟨?_, ?_, h3⟩
    · intro m k
      rw [inUp_snoc]
      grind
    · intro m
      rw [outUp_snoc]
      grind

theorem tracks_nil {L : Type} : Tracks ([] : List (Event L)) ⟨[], []⟩ :=
  ⟨by intro n l; simp [AMap.get, InUp], by intro n; simp [OutUp], List.nodup_nil⟩

theorem await_ready {L : Type} (evs pre : List (Event L)) (t t' : Tunnels L) (rest : List (Event L)) (closed : Bool) (h : Tracks pre t)
    (hr : await t evs closed = .ready t' rest) :
    ∃ used, evs = used ++ rest ∧ Tracks (pre ++ used) t' ∧ t'.inbound.isEmpty = false ∧ t'.outbound.isEmpty = false := by
  induction evs generalizing t pre with
  | nil =>
    unfold await at hr
    split at hr <;> cases hr
  | cons e es ih =>
    unfold await at hr
    split at hr
    · rename_i hc
      simp only [Bool.and_eq_true, Bool.not_eq_true'] at hc
      cases hr
      exact ⟨[e], rfl, h.step e, hc.1.2, hc.2⟩
    · obtain ⟨used, h1, h2, h3⟩ := ih (pre ++ [e]) (t.step e) (h.step e) hr
      refine ⟨e :: used, by rw [h1]; rfl, ?_, h3⟩
      rw [List.append_assoc] at h2
      exact h2

/-- Either of the two kinds is missing. -/
def Tunnels.lacking {L : Type} (t : Tunnels L) : Prop := t.inbound = [] ∨ t.outbound = []

theorem await_waiting {L : Type} (evs pre : List (Event L)) (t t' : Tunnels L) (h : Tracks pre t) (hl : t.lacking) (hr : await t evs false = .waiting t') :
    Tracks (pre ++ evs) t' ∧ t'.lacking := by
  induction evs generalizing t pre with
  | nil =>
    unfold await at hr
    rw [if_neg (by simp)] at hr
    cases hr
    rw [List.append_nil]
    exact ⟨h, hl⟩
  | cons e es ih =>
    unfold await at hr
    split at hr
    · cases hr
    · rename_i hc
      have := ih (pre ++ [e]) (t.step e) (h.step e) ?_ hr
      · rw [List.append_assoc] at this
        exact this
      · simp only [Bool.and_eq_true, Bool.not_eq_true', not_and, Bool.not_eq_false] at hc
        unfold Tunnels.lacking
        cases e with
        | inBuilt n l =>
          by_cases hi : ((t.step (.inBuilt n l)).inbound.isEmpty) = false
          · exact .inr (List.isEmpty_iff.mp (hc ⟨rfl, hi⟩))
          · exact .inl (List.isEmpty_iff.mp (by simpa using hi))
        | outBuilt n =>
          by_cases hi : ((t.step (.outBuilt n : Event L)).inbound.isEmpty) = false
          · exact .inr (List.isEmpty_iff.mp (hc ⟨rfl, hi⟩))
          · exact .inl (List.isEmpty_iff.mp (by simpa using hi))
        | inExpired n =>
          rcases hl with hl | hl
          · exact .inl (by show t.inbound.del n = []; rw [hl]; rfl)
          · exact .inr hl
        | outExpired n =>
          rcases hl with hl | hl
          · exact .inl hl
          · exact .inr (by show rem n t.outbound = []; rw [hl]; rfl)
        | other => exact hl

/-! ## C172 -/

/-- A session is ready only when it has an inbound and an outbound tunnel, and what it starts with are exactly the tunnels that are up. -/
theorem C172_ready {L : Type} (evs rest : List (Event L)) (closed : Bool) (t : Tunnels L) (hr : await ⟨[], []⟩ evs closed = .ready t rest) :
    ∃ used, evs = used ++ rest ∧ (∃ n l, InUp used n l) ∧ (∃ n, OutUp used n) ∧
      (∀ n l, t.inbound.get n = some l ↔ InUp used n l) ∧ (∀ n, n ∈ t.outbound ↔ OutUp used n) := by
  obtain ⟨used, h1, ⟨h2, h3, h4⟩, h5, h6⟩ := await_ready evs [] _ t rest closed tracks_nil hr
  rw [List.nil_append] at h2 h3
  refine ⟨used, h1, ?_, ?_, h2, h3⟩
  · cases hi : t.inbound with
    | nil => rw [hi] at h5; cases h5
    | cons p m =>
      refine ⟨p.1, p.2, (h2 _ _).mp ?_⟩
      rw [hi, AMap.get_cons, if_pos rfl]
  · cases ho : t.outbound with
    | nil => rw [ho] at h6; cases h6
    | cons n m => exact ⟨n, (h3 n).mp (by rw [ho]; exact List.mem_cons_self)⟩

/-- As long as a session waits, it has no inbound tunnel or no outbound tunnel. -/
theorem C172_soon {L : Type} (evs : List (Event L)) (t : Tunnels L) (hr : await ⟨[], []⟩ evs false = .waiting t) :
    ¬ ((∃ n l, InUp evs n l) ∧ ∃ n, OutUp evs n) := by
  obtain ⟨⟨h1, h2, _⟩, h3⟩ := await_waiting evs [] _ t tracks_nil (.inl rfl) hr
  rw [List.nil_append] at h1 h2
  rintro ⟨⟨n, l, hn⟩, m, hm⟩
  rcases h3 with h3 | h3
  · have := (h1 n l).mpr hn
    rw [h3] at this
    cases this
  · have := (h2 m).mpr hm
    rw [h3] at this
    cases this

/-- A session fails only if the tunnel pool is closed. -/
theorem C172_fails {L : Type} (evs : List (Event L)) (t : Tunnels L) : await t evs false ≠ .closed := by
  induction evs generalizing t with
  | nil => unfold await; simp
  | cons e es ih =>
    unfold await
    split
    · simp
    · exact ih _

/-! ## C173 -/

variable {D : Type} [DecidableEq D]

/-- The datagrams that were written to the socket. -/
def sents (os : List (Out D)) : List (Nat × Bytes) := os.filterMap fun
  | .sent p b => some (p, b)
  | _ => none

/-- The datagrams that sessions have for their clients. -/
def given (ops : List (Op D)) : List (Nat × Bytes) := ops.filterMap fun
  | .inbound p b => some (p, b)
  | _ => none

/-- What is still to be written. -/
def State.left (s : State D) : List (Nat × Bytes) := s.writing.toList ++ s.queue

theorem sents_append (a b : List (Out D)) : sents (a ++ b) = sents a ++ sents b := by
  unfold sents
  exact List.filterMap_append

/-- How a step changes what was written and what is left. -/
theorem step_write (e : Env D) (s : State D) (hr : (s.step e o).running = true) (hf : o ≠ .write (some false)) :
    sents (s.step e o).out ++ (s.step e o).left = sents s.out ++ s.left ++ given [o] := by
  have hrs : s.running = true := by
    cases h : s.running with
    | true => rfl
    | false =>
      unfold State.step at hr
      rw [h] at hr
      simp only [Bool.false_eq_true, if_false] at hr
      rw [h] at hr
      cases hr
  have hlog : ∀ (t : State D) o, (∀ p b, o ≠ .sent p b) → sents (t.log o).out ++ (t.log o).left = sents t.out ++ t.left := by
    intro t o ho
    unfold State.log State.left
    dsimp only
    rw [sents_append]
    cases o with
    | sent p b => exact absurd rfl (ho p b)
    | _ => simp [sents]
  have hsend : ∀ (t : State D) i sock w room, sents (t.send i sock w room).out ++ (t.send i sock w room).left = sents t.out ++ t.left := by
    intro t i sock w room
    unfold State.send
    split <;> exact hlog _ _ (by intro p b h; cases h)
  revert hr
  unfold State.step
  rw [if_pos hrs]
  cases o with
  | create sock i y pool =>
    intro _
    show sents (s.create sock i y pool).out ++ (s.create sock i y pool).left = sents s.out ++ s.left ++ []
    rw [List.append_nil]
    unfold State.create
    (repeat' split) <;> exact hlog _ _ (by intro p b h; cases h)
  | connect sock i h room =>
    intro hr
    show sents (s.connect e sock i h room).out ++ (s.connect e sock i h room).left = sents s.out ++ s.left ++ []
    rw [List.append_nil]
    replace hr : (s.connect e sock i h room).running = true := hr
    revert hr
    unfold State.connect
    cases h with
    | dest d => exact fun _ => hsend _ _ _ _ _
    | b32 d => exact fun _ => hsend _ _ _ _ _
    | name =>
      dsimp only
      split
      · exact fun _ => rfl
      · split
        · intro hr
          cases hr
        · exact fun _ => hlog _ _ (by intro p b h; cases h)
  | accept sock i room => intro _; exact (hsend s i sock .accept room).trans (List.append_nil _).symm
  | forward sock i port room => intro _; exact (hsend s i sock (.forward port) room).trans (List.append_nil _).symm
  | refused => intro _; exact (List.append_nil _).symm
  | built k =>
    intro hr
    show sents (s.built e k).out ++ (s.built e k).left = sents s.out ++ s.left ++ []
    rw [List.append_nil]
    replace hr : (s.built e k).running = true := hr
    revert hr
    unfold State.built
    split
    · exact fun _ => rfl
    · dsimp only
      split
      · exact fun _ => rfl
      · split
        · intro hr
          cases hr
        · intro _
          unfold State.free
          split <;> rfl
  | failed k => intro _; exact (List.append_nil _).symm
  | ended k =>
    intro _
    show sents (s.ended k).out ++ (s.ended k).left = sents s.out ++ s.left ++ []
    rw [List.append_nil]
    unfold State.ended
    split
    · rfl
    · unfold State.free
      split <;> rfl
  | resolved k r room =>
    intro _
    show sents (s.resolved k r room).out ++ (s.resolved k r room).left = sents s.out ++ s.left ++ []
    rw [List.append_nil]
    unfold State.resolved
    split
    · rfl
    · dsimp only
      split
      · exact hlog { s with lookups := _ } _ (by intro p b h; cases h)
      · exact hsend { s with lookups := _ } _ _ _ _
  | crashed => intro hr; cases hr
  | recv b room =>
    intro hr
    show sents (s.recv e b room).out ++ (s.recv e b room).left = sents s.out ++ s.left ++ []
    rw [List.append_nil]
    replace hr : (s.recv e b room).running = true := hr
    revert hr
    unfold State.recv
    split
    · intro hr
      cases hr
    · exact fun _ => rfl
    · split
      · exact fun _ => hlog _ _ (by intro p b h; cases h)
      · exact fun _ => rfl
  | inbound port data =>
    intro _
    show sents s.out ++ (s.writing.toList ++ (s.queue ++ [(port, data)])) = sents s.out ++ (s.writing.toList ++ s.queue) ++ [(port, data)]
    simp only [List.append_assoc]
  | write r =>
    intro _
    show sents (s.write r).out ++ (s.write r).left = sents s.out ++ s.left ++ []
    rw [List.append_nil]
    unfold State.write State.left
    rcases hw : s.writing with _ | ⟨p, b⟩
    · rcases hq : s.queue with _ | ⟨⟨p, b⟩, q⟩
      · simp [hw, hq]
      · rcases r with _ | _ | _
        · simp
        · exact absurd rfl hf
        · simp [State.log, sents]
    · rcases r with _ | _ | _
      · simp [hw]
      · exact absurd rfl hf
      · simp [State.log, sents, hw]

/-- As long as writing to the socket does not fail, the datagrams for clients are written in the order in which sessions had them, none is lost and none is written twice. -/
theorem C173_order (e : Env D) (ops : List (Op D)) (hr : (State.run e State.new ops).running = true) (hf : .write (some false) ∉ ops) :
    sents (State.run e State.new ops).out ++ (State.run e State.new ops).left = given ops := by
  have key : ∀ (ops : List (Op D)) (s : State D), (State.run e s ops).running = true → .write (some false) ∉ ops →
      sents (State.run e s ops).out ++ (State.run e s ops).left = sents s.out ++ s.left ++ given ops := by
    intro ops
    induction ops with
    | nil => intro s _ _; exact (List.append_nil _).symm
    | cons o ops ih =>
      intro s hr hf
      have hs : (s.step e o).running = true := by
        cases h : (s.step e o).running with
        | true => rfl
        | false =>
          have hr : (State.run e (s.step e o) ops).running = true := hr
          rw [stopped e _ h, h] at hr
          cases hr
      have h1 := ih (s.step e o) hr (fun h => hf (List.mem_cons_of_mem _ h))
      have h2 := step_write (o := o) e s hs (fun h => hf (h ▸ List.mem_cons_self))
      show sents (State.run e (s.step e o) ops).out ++ (State.run e (s.step e o) ops).left = _
      rw [h1, h2]
      have : given (o :: ops) = given [o] ++ given ops := by
        unfold given
        rw [← List.filterMap_append]
        rfl
      rw [this]
      simp only [List.append_assoc]
  exact key ops State.new hr hf

/-- A datagram that cannot be written is lost, and the one after it is written. -/
theorem C173_lost_violated (e : Env D) (s : State D) (hr : s.running = true) (p : Nat × Bytes) (q : List (Nat × Bytes)) (hl : s.left = p :: q) :
    (s.step e (.write (some false))).left = q ∧ (s.step e (.write (some false))).out = s.out := by
  unfold State.step
  rw [if_pos hr]
  show (s.write (some false)).left = q ∧ (s.write (some false)).out = s.out
  unfold State.left at hl
  unfold State.write State.left
  rcases hw : s.writing with _ | x
  · rcases hq : s.queue with _ | ⟨y, q'⟩
    · rw [hw, hq] at hl
      cases hl
    · rw [hw, hq] at hl
      cases hl
      simp
  · rw [hw] at hl
    cases hl
    simp [hw]

end Emissary.SamServer
