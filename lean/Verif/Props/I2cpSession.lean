import Verif.Model.I2cpSession
/-!
# An active I2CP session

* C183: messages for a destination are sent in order, each once.
* C184: a lookup is answered once.
* C185: the client gets the messages for it in order, with ids that count up.
* C186: the session does what the client says about its lease set and its end.
-/
namespace Emissary.I2cpSession

open Emissary.I2cpMessage (Reply Status Request)
open scoped List

variable {D : Type} [DecidableEq D]

theorem run_cons (s : State D) (o : Op D) (ops : List (Op D)) : s.run (o :: ops) = (s.step o).run ops := rfl
theorem run_append (s : State D) (a b : List (Op D)) : s.run (a ++ b) = (s.run a).run b := List.foldl_append
theorem step_live (s : State D) (o : Op D) (h : s.live = false) : s.step o = s := by
  unfold State.step
  rw [if_pos h]

/-! ## Specification -/

/-- The messages for a destination that the client gave to the session, in order. -/
def given (d : D) (ops : List (Op D)) : List Bytes := ops.filterMap fun
  | .send e data _ => if e = d then some data else none
  | _ => none

/-- The messages for a destination that were sent, in order. -/
def sentTo (d : D) (out : List (Out D)) : List Bytes := out.filterMap fun
  | .sent e data => if e = d then some data else none
  | _ => none

/-- The messages that wait for the lease set of the destination. -/
def State.waiting (s : State D) (d : D) : List Bytes := (s.pending.get d).getD []

/-- How often a lookup was asked for. -/
def asked (x : Nat × Nat) (ops : List (Op D)) : Nat := ops.countP fun
  | .lookup sid req _ _ _ => (sid, req) = x
  | _ => false

/-- How often it was answered. -/
def answered (x : Nat × Nat) (out : List (Out D)) : Nat := out.countP fun
  | .reply sid req _ => (sid, req) = x
  | _ => false

/-- The messages that arrived for the client. -/
def arrived (ops : List (Op D)) : List Bytes := ops.flatMap fun
  | .messages ms => ms
  | _ => []

/-- The messages that were given to the client, with their ids. -/
def delivered (out : List (Out D)) : List (Nat × Bytes) := out.filterMap fun
  | .payload _ id data => some (id, data)
  | _ => none

/-! ## C183 -/

theorem sentTo_append (d : D) (a b : List (Out D)) : sentTo d (a ++ b) = sentTo d a ++ sentTo d b := List.filterMap_append
theorem given_append (d : D) (a b : List (Op D)) : given d (a ++ b) = given d a ++ given d b := List.filterMap_append

theorem fold_sent (d e : D) (ms : List Bytes) (s : State D) :
    sentTo e (ms.foldl (fun s data => s.log (.sent d data)) s).out = sentTo e s.out ++ (if d = e then ms else []) ∧ (ms.foldl (fun s data => s.log (.sent d data)) s).pending = s.pending ∧
      (ms.foldl (fun s data => s.log (.sent d data)) s).queries = s.queries ∧ (ms.foldl (fun s data => s.log (.sent d data)) s).lookups = s.lookups ∧
      (ms.foldl (fun s data => s.log (.sent d data)) s).books = s.books ∧ (ms.foldl (fun s data => s.log (.sent d data)) s).live = s.live ∧
      (∀ x, answered x (ms.foldl (fun s data => s.log (.sent d data)) s).out = answered x s.out) ∧
      delivered (ms.foldl (fun s data => s.log (.sent d data)) s).out = delivered s.out ∧ (ms.foldl (fun s data => s.log (.sent d data)) s).nextId = s.nextId := by
  induction ms generalizing s with
  | nil => exact ⟨by simp, rfl, rfl, rfl, rfl, rfl, fun _ => rfl, rfl, rfl⟩
  | cons m ms ih =>
    obtain ⟨h1, h2, h3, h4, h5, h6, h7, h8, h9⟩ := ih (s.log (.sent d m))
    refine ⟨?_, h2, h3, h4, h5, h6, fun x => (h7 x).trans ?_, h8.trans ?_, h9⟩
    · rw [List.foldl_cons, h1]
      show sentTo e (s.out ++ [.sent d m]) ++ _ = _
      rw [sentTo_append]
      by_cases hd : d = e <;> simp [sentTo, hd]
    · show (List.countP _ (s.out ++ [.sent d m])) = _
      rw [List.countP_append]
      simp [answered]
    · show List.filterMap _ (s.out ++ [.sent d m]) = _
      rw [List.filterMap_append]
      simp [delivered]

/-- What waits and what was sent is what was given, in order, without what is lost. -/
def Kept (d : D) (g : List Bytes) (s : State D) : Prop := sentTo d s.out ++ s.waiting d <+ g

theorem sentTo_log (d : D) (s : State D) (o : Out D) (h : ∀ e x, o ≠ .sent e x) : sentTo d (s.log o).out = sentTo d s.out := by
  show sentTo d (s.out ++ [o]) = _
  rw [sentTo_append]
  cases o with
  | sent e x => exact absurd rfl (h e x)
  | _ => exact List.append_nil _

theorem payload_sent (d : D) (ms : List Bytes) (s : State D) : sentTo d (ms.foldl State.payload s).out = sentTo d s.out ∧ (ms.foldl State.payload s).pending = s.pending ∧
    (ms.foldl State.payload s).queries = s.queries ∧ (ms.foldl State.payload s).lookups = s.lookups ∧ (ms.foldl State.payload s).books = s.books ∧ (ms.foldl State.payload s).live = s.live ∧
    ∀ x, answered x (ms.foldl State.payload s).out = answered x s.out := by
  induction ms generalizing s with
  | nil => exact ⟨rfl, rfl, rfl, rfl, rfl, rfl, fun _ => rfl⟩
  | cons m ms ih =>
    obtain ⟨h1, h2, h3, h4, h5, h6, h7⟩ := ih (s.payload m)
    refine ⟨h1.trans ?_, h2, h3, h4, h5, h6, fun x => (h7 x).trans ?_⟩
    · exact sentTo_log d { s with nextId := (s.nextId + 1) % 2 ^ 32 } _ (by intro e x h; cases h)
    · show (List.countP _ (s.out ++ [_])) = _
      rw [List.countP_append]
      simp [answered]

theorem ask_core (s : State D) (d : D) (c : Bool) : (s.ask d c).2.out = s.out ∧ (s.ask d c).2.pending = s.pending ∧ (s.ask d c).2.lookups = s.lookups ∧ (s.ask d c).2.books = s.books ∧
    (s.ask d c).2.live = s.live ∧ (s.ask d c).2.nextId = s.nextId ∧ (s.ask d c).2.sid = s.sid := by
  unfold State.ask
  split
  · exact ⟨rfl, rfl, rfl, rfl, rfl, rfl, rfl⟩
  · split <;> exact ⟨rfl, rfl, rfl, rfl, rfl, rfl, rfl⟩

theorem waiting_put (s : State D) (d e : D) (ms : List Bytes) : State.waiting { s with pending := s.pending.put d ms } e = if e = d then ms else s.waiting e := by
  unfold State.waiting
  dsimp only
  rw [AMap.get_put]
  split <;> rfl

theorem waiting_del (s : State D) (d e : D) : State.waiting { s with pending := s.pending.del d } e = if e = d then [] else s.waiting e := by
  unfold State.waiting
  dsimp only
  rw [AMap.get_del]
  split <;> rfl

theorem Kept.step {d : D} {g : List Bytes} {s : State D} (h : Kept d g s) (o : Op D) (hq : ∀ e, (s.pending.get e).isSome = true → e ∈ s.queries) : Kept d (g ++ given d [o]) (s.step o) := by
  have weak : ∀ l : List Bytes, ∀ t : State D, sentTo d t.out = sentTo d s.out → t.pending = s.pending → Kept d (g ++ l) t := by
    intro l t h1 h2
    unfold Kept State.waiting
    rw [h1, h2]
    exact h.trans (List.sublist_append_left _ _)
  by_cases hl : s.live = false
  · rw [step_live s o hl]
    exact weak _ _ rfl rfl
  · unfold State.step
    rw [if_neg hl]
    cases o with
    | getDate now => exact weak _ _ (sentTo_log _ _ _ (by intro e x h; cases h)) rfl
    | getLimits => exact weak _ _ (sentTo_log _ _ _ (by intro e x h; cases h)) rfl
    | destroy sid => exact weak _ _ (sentTo_log _ _ _ (by intro e x h; cases h)) rfl
    | create => exact weak _ _ (sentTo_log _ _ _ (by intro e x h; cases h)) rfl
    | leaseSet ls ks => exact weak _ _ (sentTo_log _ _ _ (by intro e x h; cases h)) rfl
    | other => exact weak _ _ rfl rfl
    | poolDown => exact weak _ _ rfl rfl
    | closed => exact weak _ _ rfl rfl
    | query e c => exact weak _ _ (by rw [(ask_core s e c).1]) (ask_core s e c).2.1
    | messages ms => exact weak _ _ (payload_sent d ms s).1 (payload_sent d ms s).2.1
    | requestLeaseSet leases =>
      dsimp only
      split
      · exact weak _ _ (sentTo_log _ _ _ (by intro e x h; cases h)) rfl
      · exact weak _ _ rfl rfl
    | lookup sid req kind e cached =>
      dsimp only
      unfold State.lookup
      split
      · exact weak _ _ (sentTo_log _ _ _ (by intro e x h; cases h)) rfl
      · split
        · exact weak _ _ rfl rfl
        · obtain ⟨a1, a2, _⟩ := ask_core s e cached.isSome
          split
          · rename_i t ht
            rw [ht] at a1 a2
            exact weak _ _ ((sentTo_log _ _ _ (by intro e x h; cases h)).trans (by rw [a1])) a2
          · rename_i t ht
            rw [ht] at a1 a2
            exact weak _ _ (by dsimp only at a1 ⊢; rw [a1]) a2
          · rename_i t ht
            rw [ht] at a1 a2
            exact weak _ _ (by rw [a1]) a2
    | resolved k r =>
      dsimp only
      unfold State.resolved
      split
      · exact weak _ _ rfl rfl
      · dsimp only
        split
        · exact weak _ _ (sentTo_log d { s with books := s.books.eraseIdx k } _ (by intro e x h; cases h)) rfl
        · exact weak _ _ (sentTo_log d { s with books := s.books.eraseIdx k } _ (by intro e x h; cases h)) rfl
    | send e data c =>
      dsimp only
      unfold State.send
      have hgiv : given d [Op.send e data c] = if e = d then [data] else [] := by
        by_cases he : e = d <;> simp [given, he]
      obtain ⟨a1, a2, _⟩ := ask_core s e c
      have hask : (s.ask e c).1 = .pending ↔ e ∈ s.queries := by
        unfold State.ask
        split
        · rename_i hm; simp [hm]
        · rename_i hm
          split <;> simp [hm]
      split
      · rename_i t ht
        rw [ht] at a1 a2 hask
        have hnone : s.pending.get e = none := by
          cases hp : s.pending.get e with
          | none => rfl
          | some x => exact absurd (hask.mpr (hq e (by rw [hp]; rfl))) (by simp)
        unfold Kept State.waiting
        show sentTo d (t.out ++ [.sent e data]) ++ (t.pending.get d).getD [] <+ _
        dsimp only at a1 a2
        rw [sentTo_append, a1, a2, hgiv]
        by_cases he : e = d
        · subst he
          rw [hnone, if_pos rfl]
          have : sentTo e [Out.sent e data] = [data] := by simp [sentTo]
          rw [this]
          show sentTo e s.out ++ [data] ++ [] <+ _
          rw [List.append_nil]
          have h1 : sentTo e s.out <+ g := (List.sublist_append_left _ _).trans h
          exact h1.append (List.Sublist.refl _)
        · rw [if_neg he]
          have : sentTo d [Out.sent e data] = [] := by simp [sentTo, he]
          rw [this, List.append_nil, List.append_nil]
          exact h
      · rename_i t ht
        rw [ht] at a1 a2 hask
        have hnone : s.pending.get e = none := by
          cases hp : s.pending.get e with
          | none => rfl
          | some x => exact absurd (hask.mpr (hq e (by rw [hp]; rfl))) (by simp)
        unfold Kept
        rw [waiting_put, hgiv]
        show sentTo d t.out ++ _ <+ _
        dsimp only at a1 a2
        rw [a1]
        by_cases he : e = d
        · subst he
          rw [if_pos rfl, if_pos rfl]
          exact ((List.sublist_append_left _ _).trans h).append (List.Sublist.refl _)
        · rw [if_neg (fun x => he x.symm), if_neg he, List.append_nil]
          unfold State.waiting
          rw [a2]
          exact h
      · rename_i t ht
        rw [ht] at a1 a2 hask
        dsimp only at a1 a2
        split
        · rename_i ms hms
          unfold Kept
          rw [waiting_put, hgiv]
          show sentTo d t.out ++ _ <+ _
          rw [a1]
          by_cases he : e = d
          · subst he
            rw [if_pos rfl, if_pos rfl, ← List.append_assoc]
            refine List.Sublist.append ?_ (List.Sublist.refl _)
            rw [a2] at hms
            have h' : sentTo e s.out ++ (s.pending.get e).getD [] <+ g := h
            rw [hms] at h'
            exact h'
          · rw [if_neg (fun x => he x.symm), if_neg he, List.append_nil]
            unfold State.waiting
            rw [a2]
            exact h
        · exact weak _ _ (by rw [a1]) a2
    | found e value =>
      dsimp only
      rw [show given d [Op.found e value] = [] from rfl, List.append_nil]
      unfold State.found
      split
      · dsimp only
        split
        · rename_i ms hms
          obtain ⟨f1, f2, _⟩ := fold_sent e d ms { s.over e with pending := (s.over e).pending.del e }
          unfold Kept
          unfold State.waiting
          rw [f1, f2]
          show sentTo d s.out ++ _ ++ State.waiting { s.over e with pending := (s.over e).pending.del e } d <+ g
          rw [waiting_del]
          by_cases he : d = e
          · subst he
            rw [if_pos rfl, if_pos rfl, List.append_nil]
            have h' : sentTo d s.out ++ (s.pending.get d).getD [] <+ g := h
            rw [show s.pending.get d = some ms from hms] at h'
            exact h'
          · rw [if_neg (fun x => he x.symm), if_neg he, List.append_nil]
            exact h
        · unfold State.answer
          split
          · rename_i a b _
            have := weak [] (State.log { s.over e with lookups := (s.over e).lookups.del e } (.reply a b (.success value))) (sentTo_log d { s.over e with lookups := (s.over e).lookups.del e } _ (by intro e x h; cases h)) rfl
            rw [List.append_nil] at this
            exact this
          · exact h
      · exact h
    | notFound e =>
      dsimp only
      rw [show given d [Op.notFound e] = [] from rfl, List.append_nil]
      unfold State.notFound
      split
      · dsimp only
        split
        · unfold Kept
          rw [waiting_del]
          show sentTo d s.out ++ _ <+ g
          split
          · rw [List.append_nil]
            exact (List.sublist_append_left _ _).trans h
          · exact h
        · unfold State.answer
          split
          · rename_i a b _
            have := weak [] (State.log { s.over e with lookups := (s.over e).lookups.del e } (.reply a b (.failure 1))) (sentTo_log d { s.over e with lookups := (s.over e).lookups.del e } _ (by intro e x h; cases h)) rfl
            rw [List.append_nil] at this
            exact this
          · exact h
      · exact h

/-- Messages and lookups wait only while there is a query, and not both for the same destination. -/
structure Inv (s : State D) : Prop where
  pend : ∀ e, (s.pending.get e).isSome = true → e ∈ s.queries
  look : ∀ e, (s.lookups.get e).isSome = true → e ∈ s.queries
  apart : ∀ e, (s.pending.get e).isSome = true → s.lookups.get e = none

theorem Inv.of {s t : State D} (h : Inv s) (h1 : t.pending = s.pending) (h2 : t.lookups = s.lookups) (h3 : t.queries = s.queries) : Inv t :=
  ⟨fun e he => by rw [h3]; exact h.pend e (by rw [← h1]; exact he), fun e he => by rw [h3]; exact h.look e (by rw [← h2]; exact he), fun e he => by rw [h2]; exact h.apart e (by rw [← h1]; exact he)⟩

theorem Inv.ask {s : State D} (h : Inv s) (d : D) (c : Bool) : Inv (s.ask d c).2 := by
  unfold State.ask
  split
  · exact h
  · split
    · exact h
    · exact ⟨fun e he => List.mem_cons_of_mem _ (h.pend e he), fun e he => List.mem_cons_of_mem _ (h.look e he), h.apart⟩

/-- After `ask`: the destination is asked for, or was known. -/
theorem ask_cases (s : State D) (d : D) (c : Bool) :
    (d ∈ s.queries ∧ s.ask d c = (.pending, s)) ∨ (d ∉ s.queries ∧ c = true ∧ s.ask d c = (.found, s)) ∨ (d ∉ s.queries ∧ c = false ∧ s.ask d c = (.notFound, { s with queries := d :: s.queries })) := by
  unfold State.ask
  split
  · rename_i h; exact .inl ⟨h, rfl⟩
  · rename_i h
    split
    · rename_i hc; exact .inr (.inl ⟨h, hc, rfl⟩)
    · rename_i hc; exact .inr (.inr ⟨h, by simpa using hc, rfl⟩)

theorem Inv.answer {s : State D} {d : D} (h : Inv s) (r : Reply) (hp : s.pending.get d = none) : Inv ((s.over d).answer d r) := by
  have mem : ∀ e, e ∈ s.queries → e ≠ d → e ∈ (s.over d).queries := fun e he hne => List.mem_filter.mpr ⟨he, by simpa using hne⟩
  unfold State.answer
  split
  · refine ⟨?_, ?_, ?_⟩
    · intro e he
      refine mem e (h.pend e he) ?_
      rintro rfl
      have he : (s.pending.get e).isSome = true := he
      rw [hp] at he
      cases he
    · intro e he
      have he : (AMap.get (AMap.del s.lookups d) e).isSome = true := he
      rw [AMap.get_del] at he
      split at he
      · cases he
      · rename_i hne
        exact mem e (h.look e he) hne
    · intro e he
      show AMap.get (AMap.del s.lookups d) e = none
      rw [AMap.get_del]
      split
      · rfl
      · exact h.apart e he
  · rename_i hn
    refine ⟨?_, ?_, h.apart⟩
    · intro e he
      refine mem e (h.pend e he) ?_
      rintro rfl
      have he : (s.pending.get e).isSome = true := he
      rw [hp] at he
      cases he
    · intro e he
      refine mem e (h.look e he) ?_
      rintro rfl
      have he : (s.lookups.get e).isSome = true := he
      have hn : s.lookups.get e = none := hn
      rw [hn] at he
      cases he

theorem Inv.del {s : State D} {d : D} (h : Inv s) (hp : (s.pending.get d).isSome = true) : Inv { s.over d with pending := (s.over d).pending.del d } := by
  have mem : ∀ e, e ∈ s.queries → e ≠ d → e ∈ (s.over d).queries := fun e he hne => List.mem_filter.mpr ⟨he, by simpa using hne⟩
  refine ⟨?_, ?_, ?_⟩
  · intro e he
    have he : (AMap.get (AMap.del s.pending d) e).isSome = true := he
    rw [AMap.get_del] at he
    split at he
    · cases he
    · rename_i hne
      exact mem e (h.pend e he) hne
  · intro e he
    refine mem e (h.look e he) ?_
    rintro rfl
    have he : (s.lookups.get e).isSome = true := he
    rw [h.apart e hp] at he
    cases he
  · intro e he
    have he : (AMap.get (AMap.del s.pending d) e).isSome = true := he
    rw [AMap.get_del] at he
    split at he
    · cases he
    · exact h.apart e he

theorem Inv.step {s : State D} (h : Inv s) (o : Op D) : Inv (s.step o) := by
  by_cases hl : s.live = false
  · rw [step_live s o hl]; exact h
  · unfold State.step
    rw [if_neg hl]
    cases o with
    | getDate now => exact h.of rfl rfl rfl
    | getLimits => exact h.of rfl rfl rfl
    | destroy sid => exact h.of rfl rfl rfl
    | create => exact h.of rfl rfl rfl
    | leaseSet ls ks => exact h.of rfl rfl rfl
    | other => exact h
    | poolDown => exact h.of rfl rfl rfl
    | closed => exact h.of rfl rfl rfl
    | query e c => exact h.ask e c
    | messages ms =>
      rename_i x
      by_cases hd : ∃ d : D, True
      · obtain ⟨d, _⟩ := hd
        obtain ⟨_, h1, h2, h3, _⟩ := payload_sent d ms s
        exact h.of h1 h3 h2
      · exact ⟨fun e => absurd ⟨e, trivial⟩ hd, fun e => absurd ⟨e, trivial⟩ hd, fun e => absurd ⟨e, trivial⟩ hd⟩
    | requestLeaseSet leases =>
      dsimp only
      split <;> exact h.of rfl rfl rfl
    | resolved k r =>
      dsimp only
      unfold State.resolved
      split
      · exact h
      · dsimp only
        split <;> exact h.of rfl rfl rfl
    | lookup sid req kind d cached =>
      dsimp only
      unfold State.lookup
      split
      · exact h.of rfl rfl rfl
      · split
        · exact h.of rfl rfl rfl
        · rcases ask_cases s d cached.isSome with ⟨hm, hk⟩ | ⟨hm, _, hk⟩ | ⟨hm, _, hk⟩
          · rw [hk]; exact h
          · rw [hk]; exact h.of rfl rfl rfl
          · rw [hk]
            refine ⟨fun e he => List.mem_cons_of_mem _ (h.pend e he), ?_, ?_⟩
            · intro e he
              have he : (AMap.get (AMap.put s.lookups d (sid, req)) e).isSome = true := he
              rw [AMap.get_put] at he
              split at he
              · rename_i hed; rw [hed]; exact List.mem_cons_self
              · exact List.mem_cons_of_mem _ (h.look e he)
            · intro e he
              have he' : (s.pending.get e).isSome = true := he
              show AMap.get (AMap.put s.lookups d (sid, req)) e = none
              rw [AMap.get_put, if_neg (by rintro rfl; exact hm (h.pend e he'))]
              exact h.apart e he'
    | send d data c =>
      dsimp only
      unfold State.send
      rcases ask_cases s d c with ⟨hm, hk⟩ | ⟨hm, _, hk⟩ | ⟨hm, _, hk⟩
      · rw [hk]
        dsimp only
        split
        · rename_i ms hms
          refine ⟨?_, h.look, ?_⟩
          · intro e he
            have he : (AMap.get (AMap.put s.pending d (ms ++ [data])) e).isSome = true := he
            rw [AMap.get_put] at he
            split at he
            · rename_i hed; rw [hed]; exact hm
            · exact h.pend e he
          · intro e he
            have he : (AMap.get (AMap.put s.pending d (ms ++ [data])) e).isSome = true := he
            rw [AMap.get_put] at he
            split at he
            · rename_i hed; rw [hed]; exact h.apart d (by rw [hms]; rfl)
            · exact h.apart e he
        · exact h
      · rw [hk]; exact h.of rfl rfl rfl
      · rw [hk]
        refine ⟨?_, fun e he => List.mem_cons_of_mem _ (h.look e he), ?_⟩
        · intro e he
          have he : (AMap.get (AMap.put s.pending d [data]) e).isSome = true := he
          rw [AMap.get_put] at he
          split at he
          · rename_i hed; rw [hed]; exact List.mem_cons_self
          · exact List.mem_cons_of_mem _ (h.pend e he)
        · intro e he
          have he : (AMap.get (AMap.put s.pending d [data]) e).isSome = true := he
          show s.lookups.get e = none
          rw [AMap.get_put] at he
          split at he
          · rename_i hed
            rw [hed]
            cases hlk : s.lookups.get d with
            | none => rfl
            | some x => exact absurd (h.look d (by rw [hlk]; rfl)) hm
          · exact h.apart e he
    | found d value =>
      dsimp only
      unfold State.found
      split
      · dsimp only
        split
        · rename_i ms hms
          obtain ⟨_, f2, f3, f4, _⟩ := fold_sent d d ms { s.over d with pending := (s.over d).pending.del d }
          exact (h.del (by rw [show s.pending.get d = some ms from hms]; rfl)).of f2 f4 f3
        · rename_i hn
          exact h.answer _ hn
      · exact h
    | notFound d =>
      dsimp only
      unfold State.notFound
      split
      · dsimp only
        split
        · rename_i ms hms
          exact h.del (by rw [show s.pending.get d = some ms from hms]; rfl)
        · rename_i hn
          exact h.answer _ hn
      · exact h

theorem Inv.run {s : State D} (h : Inv s) (ops : List (Op D)) : Inv (s.run ops) := by
  induction ops generalizing s with
  | nil => exact h
  | cons o ops ih => exact ih (h.step o)

theorem new_inv {sid : Nat} {book : Bool} {keys : List Bytes} {opt : Option Bytes} {ls : Bytes} {s : State D} (h : State.new sid book keys opt ls = some s) :
    Inv s ∧ s.out = [.published ls] ∧ s.pending = [] ∧ s.lookups = [] ∧ s.books = [] ∧ s.nextId = 0 ∧ s.sid = sid ∧ s.live = true ∧ s.book = book := by
  unfold State.new at h
  split at h
  · cases h
  · cases h
    exact ⟨⟨(fun e he => by cases he), (fun e he => by cases he), (fun e he => by cases he)⟩, rfl, rfl, rfl, rfl, rfl, rfl, rfl, rfl⟩

theorem Kept.run {d : D} {g : List Bytes} {s : State D} (h : Kept d g s) (hi : Inv s) (ops : List (Op D)) : Kept d (g ++ given d ops) (s.run ops) := by
  induction ops generalizing s g with
  | nil => rw [show given d ([] : List (Op D)) = [] from rfl, List.append_nil]; exact h
  | cons o ops ih =>
    have := ih (h.step o hi.pend) (hi.step o)
    rw [List.append_assoc, ← given_append] at this
    exact this

/-- Messages for a destination are sent in the order in which the client gave them, and none twice. -/
theorem C183_order {sid : Nat} {book : Bool} {keys : List Bytes} {opt : Option Bytes} {ls : Bytes} {s : State D} (h : State.new sid book keys opt ls = some s) (ops : List (Op D)) (d : D) :
    sentTo d (s.run ops).out <+ given d ops := by
  obtain ⟨hi, ho, hp, _⟩ := new_inv h
  have : Kept d [] s := by
    unfold Kept State.waiting
    rw [ho, hp]
    exact List.Sublist.refl _
  have := this.run hi ops
  rw [List.nil_append] at this
  exact (List.sublist_append_left _ _).trans this

/-- A message for a destination whose lease set is there is sent at once. -/
theorem C183_now {sid : Nat} {book : Bool} {keys : List Bytes} {opt : Option Bytes} {ls : Bytes} {s : State D} (_ : State.new sid book keys opt ls = some s) (ops : List (Op D)) (d : D) (data : Bytes)
    (hl : (s.run ops).live = true) (hq : d ∉ (s.run ops).queries) : (s.run (ops ++ [.send d data true])).out = (s.run ops).out ++ [.sent d data] := by
  rw [run_append]
  show ((s.run ops).step (.send d data true)).out = _
  unfold State.step
  rw [if_neg (by rw [hl]; simp)]
  dsimp only
  unfold State.send State.ask
  rw [if_neg hq]
  rfl

/-- Nothing about the destination and the session does not end. -/
def quiet (d : D) : Op D → Prop
  | .found e _ => e ≠ d
  | .notFound e => e ≠ d
  | .poolDown => False
  | .closed => False
  | .requestLeaseSet leases => leases ≠ []
  | _ => True

/-- What waits for a destination during quiet steps: what waited, then what was given. -/
theorem quiet_step {s : State D} (d : D) (ms : List Bytes) (hl : s.live = true) (hp : s.pending.get d = some ms) (hq : d ∈ s.queries) (o : Op D) (ho : quiet d o) :
    (s.step o).live = true ∧ (s.step o).pending.get d = some (ms ++ given d [o]) ∧ d ∈ (s.step o).queries := by
  have same : ∀ t : State D, given d [o] = [] → t.live = s.live → t.pending = s.pending → t.queries = s.queries → t.live = true ∧ t.pending.get d = some (ms ++ given d [o]) ∧ d ∈ t.queries := by
    intro t h0 h1 h2 h3
    rw [h0, h1, h2, h3, List.append_nil]
    exact ⟨hl, hp, hq⟩
  unfold State.step
  rw [if_neg (by rw [hl]; simp)]
  cases o with
  | getDate now => exact same _ rfl rfl rfl rfl
  | getLimits => exact same _ rfl rfl rfl rfl
  | destroy sid => exact same _ rfl rfl rfl rfl
  | create => exact same _ rfl rfl rfl rfl
  | leaseSet ls ks => exact same _ rfl rfl rfl rfl
  | other => exact same _ rfl rfl rfl rfl
  | poolDown => exact ho.elim
  | closed => exact ho.elim
  | query e c =>
    dsimp only
    rcases ask_cases s e c with ⟨_, h⟩ | ⟨_, _, h⟩ | ⟨_, _, h⟩
    · rw [h]; exact same _ rfl rfl rfl rfl
    · rw [h]; exact same _ rfl rfl rfl rfl
    · rw [h]
      refine ⟨hl, ?_, List.mem_cons_of_mem _ hq⟩
      rw [show given d [Op.query e c] = [] from rfl, List.append_nil]
      exact hp
  | messages l =>
    obtain ⟨_, h1, h2, _, _, h3, _⟩ := payload_sent d l s
    exact same _ rfl h3 h1 h2
  | requestLeaseSet leases =>
    dsimp only
    have hne : leases ≠ [] := ho
    unfold I2cpMessage.mkLeaseRequest
    rw [if_neg hne]
    exact same _ rfl rfl rfl rfl
  | resolved k r =>
    dsimp only
    unfold State.resolved
    split
    · exact same _ rfl rfl rfl rfl
    · dsimp only
      split <;> exact same _ rfl rfl rfl rfl
  | lookup sid req kind e cached =>
    dsimp only
    unfold State.lookup
    split
    · exact same _ rfl rfl rfl rfl
    · split
      · exact same _ rfl rfl rfl rfl
      · rcases ask_cases s e cached.isSome with ⟨_, h⟩ | ⟨_, _, h⟩ | ⟨_, _, h⟩
        · rw [h]; exact same _ rfl rfl rfl rfl
        · rw [h]; exact same _ rfl rfl rfl rfl
        · rw [h]
          refine ⟨hl, ?_, List.mem_cons_of_mem _ hq⟩
          rw [show given d [Op.lookup sid req _ e cached] = [] from rfl, List.append_nil]
          exact hp
  | send e data c =>
    have hgiv : given d [Op.send e data c] = if e = d then [data] else [] := by
      by_cases he : e = d <;> simp [given, he]
    dsimp only
    unfold State.send
    rcases ask_cases s e c with ⟨hm, h⟩ | ⟨hm, _, h⟩ | ⟨hm, _, h⟩
    · rw [h]
      dsimp only
      by_cases he : e = d
      · subst he
        rw [hp]
        refine ⟨hl, ?_, hq⟩
        rw [hgiv, if_pos rfl]
        show AMap.get (AMap.put s.pending e _) e = _
        rw [AMap.get_put, if_pos rfl]
      · rw [if_neg he] at hgiv
        split
        · refine ⟨hl, ?_, hq⟩
          rw [hgiv, List.append_nil]
          show AMap.get (AMap.put s.pending e _) d = _
          rw [AMap.get_put, if_neg (fun x => he x.symm)]
          exact hp
        · exact same _ hgiv rfl rfl rfl
    · have he : e ≠ d := by rintro rfl; exact hm hq
      rw [if_neg he] at hgiv
      rw [h]
      exact same _ hgiv rfl rfl rfl
    · have he : e ≠ d := by rintro rfl; exact hm hq
      rw [if_neg he] at hgiv
      rw [h]
      refine ⟨hl, ?_, List.mem_cons_of_mem _ hq⟩
      rw [hgiv, List.append_nil]
      show AMap.get (AMap.put s.pending e _) d = _
      rw [AMap.get_put, if_neg (fun x => he x.symm)]
      exact hp
  | found e value =>
    have he : e ≠ d := ho
    dsimp only
    unfold State.found
    have hover : d ∈ (s.over e).queries := List.mem_filter.mpr ⟨hq, by simpa using fun x => he x.symm⟩
    rw [show given d [Op.found e value] = [] from rfl, List.append_nil]
    split
    · dsimp only
      split
      · rename_i l hl'
        obtain ⟨_, f2, f3, _, _, f6, _⟩ := fold_sent e d l { s.over e with pending := (s.over e).pending.del e }
        rw [f2, f3, f6]
        refine ⟨hl, ?_, hover⟩
        show AMap.get (AMap.del s.pending e) d = _
        rw [AMap.get_del, if_neg (fun x => he x.symm)]
        exact hp
      · unfold State.answer
        split <;> exact ⟨hl, hp, hover⟩
    · exact ⟨hl, hp, hq⟩
  | notFound e =>
    have he : e ≠ d := ho
    dsimp only
    unfold State.notFound
    have hover : d ∈ (s.over e).queries := List.mem_filter.mpr ⟨hq, by simpa using fun x => he x.symm⟩
    rw [show given d [Op.notFound e] = [] from rfl, List.append_nil]
    split
    · dsimp only
      split
      · refine ⟨hl, ?_, hover⟩
        show AMap.get (AMap.del s.pending e) d = _
        rw [AMap.get_del, if_neg (fun x => he x.symm)]
        exact hp
      · unfold State.answer
        split <;> exact ⟨hl, hp, hover⟩
    · exact ⟨hl, hp, hq⟩

theorem quiet_run (d : D) (ops : List (Op D)) : ∀ {s : State D} (ms : List Bytes), s.live = true → s.pending.get d = some ms → d ∈ s.queries → (∀ o ∈ ops, quiet d o) →
    (s.run ops).live = true ∧ (s.run ops).pending.get d = some (ms ++ given d ops) ∧ d ∈ (s.run ops).queries := by
  induction ops with
  | nil =>
    intro s ms hl hp hq _
    rw [show given d ([] : List (Op D)) = [] from rfl, List.append_nil]
    exact ⟨hl, hp, hq⟩
  | cons o ops ih =>
    intro s ms hl hp hq ho
    obtain ⟨h1, h2, h3⟩ := quiet_step d ms hl hp hq o (ho o List.mem_cons_self)
    have := ih _ h1 h2 h3 (fun o h => ho o (List.mem_cons_of_mem _ h))
    rw [List.append_assoc, ← given_append] at this
    exact this

/-- If the first of several messages starts the query, all of them wait and are sent in order when the lease set is found. -/
theorem C183_later_partial {sid : Nat} {book : Bool} {keys : List Bytes} {opt : Option Bytes} {ls : Bytes} {s : State D} (_ : State.new sid book keys opt ls = some s) (ops more : List (Op D)) (d : D)
    (data value : Bytes) (hl : (s.run ops).live = true) (hq : d ∉ (s.run ops).queries) (hm : ∀ o ∈ more, quiet d o) :
    sentTo d (s.run (ops ++ .send d data false :: more ++ [.found d value])).out = sentTo d (s.run (ops ++ .send d data false :: more)).out ++ (data :: given d more) := by
  simp only [run_append, run_cons]
  generalize s.run ops = t at hl hq
  have h0 : t.step (.send d data false) = { t with queries := d :: t.queries, pending := t.pending.put d [data] } := by
    unfold State.step
    rw [if_neg (by rw [hl]; simp)]
    dsimp only
    unfold State.send State.ask
    rw [if_neg hq]
    rfl
  rw [h0]
  obtain ⟨h1, h2, h3⟩ := quiet_run d more [data] (s := { t with queries := d :: t.queries, pending := t.pending.put d [data] }) hl
    (by show AMap.get (AMap.put _ _ _) d = _; rw [AMap.get_put, if_pos rfl]) List.mem_cons_self hm
  generalize State.run { t with queries := d :: t.queries, pending := t.pending.put d [data] } more = u at h1 h2 h3
  show sentTo d (u.step (.found d value)).out = _
  unfold State.step
  rw [if_neg (by rw [h1]; simp)]
  dsimp only
  unfold State.found
  rw [if_pos h3]
  dsimp only
  rw [show (u.over d).pending.get d = some ([data] ++ given d more) from h2]
  dsimp only
  obtain ⟨f1, _⟩ := fold_sent d d ([data] ++ given d more) { u.over d with pending := (u.over d).pending.del d }
  rw [f1, if_pos rfl]
  rfl

/-- A message for a destination that was looked up a moment ago, or that the router itself looks for, is lost: it is not sent, it does not wait, and the client is not told. -/
theorem C183_lost_violated (s : State D) (d : D) (data : Bytes) (c : Bool) (hq : d ∈ s.queries) (hp : s.pending.get d = none) : s.step (.send d data c) = s := by
  unfold State.step
  split
  · rfl
  · dsimp only
    unfold State.send State.ask
    rw [if_pos hq]
    dsimp only
    rw [hp]

/-- Such a state: the client looks up the hash of a destination and then sends to it. When the lease set is found, only the lookup is answered. -/
theorem C183_lookup_violated {sid : Nat} {keys : List Bytes} {opt : Option Bytes} {ls : Bytes} {s : State D} (h : State.new sid true keys opt ls = some s) (d : D) (x y : Nat) (hash data value : Bytes) :
    (s.run [.lookup x y (.hash hash) d none, .send d data false, .found d value]).out = s.out ++ [.reply x y (.success value)] ∧
    (s.run [.lookup x y (.hash hash) d none, .send d data false, .found d value]).pending = [] := by
  unfold State.new at h
  split at h
  · cases h
  · rename_i k ks
    cases h
    simp [State.run, State.step, State.lookup, State.ask, State.send, State.found, State.over, State.answer, State.log, AMap.put, AMap.get, AMap.del]

/-- When the lease set of a destination is not found what waits is thrown away, and the client is not told. -/
theorem C183_silent_violated (s : State D) (d : D) (ms : List Bytes) (hl : s.live = true) (hq : d ∈ s.queries) (hp : s.pending.get d = some ms) :
    (s.step (.notFound d)).out = s.out ∧ (s.step (.notFound d)).pending.get d = none := by
  unfold State.step
  rw [if_neg (by rw [hl]; simp)]
  dsimp only
  unfold State.notFound
  rw [if_pos hq]
  dsimp only
  rw [show (s.over d).pending.get d = some ms from hp]
  refine ⟨rfl, ?_⟩
  show AMap.get (AMap.del s.pending d) d = none
  rw [AMap.get_del, if_pos rfl]

/-! ## C184 -/

/-- Lookups that wait for an answer. -/
def State.open (s : State D) (x : Nat × Nat) : Nat := s.books.count x + (s.lookups.map (·.2)).count x

theorem answered_append (x : Nat × Nat) (a b : List (Out D)) : answered x (a ++ b) = answered x a + answered x b := List.countP_append

theorem answered_log (x : Nat × Nat) (s : State D) (o : Out D) (h : ∀ a b c, o ≠ .reply a b c) : answered x (s.log o).out = answered x s.out := by
  show answered x (s.out ++ [o]) = _
  rw [answered_append]
  cases o with
  | reply a b c => exact absurd rfl (h a b c)
  | _ => exact Nat.add_zero _

theorem answered_reply (x : Nat × Nat) (s : State D) (a b : Nat) (c : Reply) : answered x (s.log (.reply a b c)).out = answered x s.out + if (a, b) = x then 1 else 0 := by
  show answered x (s.out ++ [.reply a b c]) = _
  rw [answered_append]
  by_cases h : (a, b) = x <;> simp [answered, h]

theorem count_del (m : AMap D (Nat × Nat)) (d : D) (v x : Nat × Nat) (h : m.get d = some v) : ((m.del d).map (·.2)).count x + (if v = x then 1 else 0) ≤ (m.map (·.2)).count x := by
  induction m with
  | nil => cases h
  | cons p m ih =>
    rw [AMap.get_cons] at h
    have hcons : AMap.del (p :: m) d = if p.1 = d then AMap.del m d else p :: AMap.del m d := by
      unfold AMap.del
      rw [List.filter_cons]
      by_cases hp : p.1 = d <;> simp [hp]
    have hle : ((AMap.del m d).map (·.2)).count x ≤ (m.map (·.2)).count x := List.Sublist.count_le _ (List.Sublist.map _ List.filter_sublist)
    rw [hcons, List.map_cons, List.count_cons]
    split at h
    · rename_i hp
      rw [if_pos hp]
      have h : p.2 = v := Option.some.inj h
      rw [h]
      by_cases hv : v = x
      · simp [hv]; omega
      · simp [hv]; omega
    · rename_i hp
      rw [if_neg hp, List.map_cons, List.count_cons]
      have := ih h
      omega

theorem count_put (m : AMap D (Nat × Nat)) (d : D) (v x : Nat × Nat) : ((m.put d v).map (·.2)).count x ≤ (m.map (·.2)).count x + if v = x then 1 else 0 := by
  unfold AMap.put
  have hle : ((AMap.del m d).map (·.2)).count x ≤ (m.map (·.2)).count x := List.Sublist.count_le _ (List.Sublist.map _ List.filter_sublist)
  rw [List.map_cons, List.count_cons]
  by_cases hv : v = x
  · simp [hv]; omega
  · simp [hv]; omega

theorem asked_append (x : Nat × Nat) (a b : List (Op D)) : asked x (a ++ b) = asked x a + asked x b := List.countP_append

theorem once_step (x : Nat × Nat) (s : State D) (o : Op D) : answered x (s.step o).out + (s.step o).open x ≤ answered x s.out + s.open x + asked x [o] := by
  have same : ∀ t : State D, answered x t.out = answered x s.out → t.books = s.books → t.lookups = s.lookups → answered x t.out + t.open x ≤ answered x s.out + s.open x + asked x [o] := by
    intro t h1 h2 h3
    unfold State.open
    rw [h1, h2, h3]
    exact Nat.le_add_right _ _
  by_cases hl : s.live = false
  · rw [step_live s o hl]; exact same _ rfl rfl rfl
  · unfold State.step
    rw [if_neg hl]
    cases o with
    | getDate now => exact same _ (answered_log _ _ _ (by intro a b c h; cases h)) rfl rfl
    | getLimits => exact same _ (answered_log _ _ _ (by intro a b c h; cases h)) rfl rfl
    | destroy sid => exact same _ (answered_log _ _ _ (by intro a b c h; cases h)) rfl rfl
    | create => exact same _ (answered_log _ _ _ (by intro a b c h; cases h)) rfl rfl
    | leaseSet ls ks => exact same _ (answered_log _ _ _ (by intro a b c h; cases h)) rfl rfl
    | other => exact same _ rfl rfl rfl
    | poolDown => exact same _ rfl rfl rfl
    | closed => exact same _ rfl rfl rfl
    | query e c =>
      obtain ⟨a1, _, a3, a4, _⟩ := ask_core s e c
      exact same _ (by rw [a1]) a4 a3
    | messages ms =>
      dsimp only
      have : ∀ (ms : List Bytes) (t : State D), answered x (ms.foldl State.payload t).out = answered x t.out ∧ (ms.foldl State.payload t).books = t.books ∧ (ms.foldl State.payload t).lookups = t.lookups := by
        intro ms
        induction ms with
        | nil => intro t; exact ⟨rfl, rfl, rfl⟩
        | cons m ms ih =>
          intro t
          obtain ⟨h1, h2, h3⟩ := ih (t.payload m)
          exact ⟨h1.trans (answered_log x { t with nextId := (t.nextId + 1) % 2 ^ 32 } _ (by intro a b c h; cases h)), h2, h3⟩
      obtain ⟨h1, h2, h3⟩ := this ms s
      exact same _ h1 h2 h3
    | requestLeaseSet leases =>
      dsimp only
      split
      · exact same _ (answered_log _ _ _ (by intro a b c h; cases h)) rfl rfl
      · exact same _ rfl rfl rfl
    | send e data c =>
      dsimp only
      unfold State.send
      obtain ⟨a1, a2, a3, a4, _⟩ := ask_core s e c
      split
      · rename_i t ht
        rw [ht] at a1 a3 a4
        exact same _ ((answered_log _ _ _ (by intro a b c h; cases h)).trans (by rw [a1])) a4 a3
      · rename_i t ht
        rw [ht] at a1 a3 a4
        exact same _ (by dsimp only at a1 ⊢; rw [a1]) a4 a3
      · rename_i t ht
        rw [ht] at a1 a3 a4
        split
        · exact same _ (by dsimp only at a1 ⊢; rw [a1]) a4 a3
        · exact same _ (by rw [a1]) a4 a3
    | resolved k r =>
      dsimp only
      unfold State.resolved
      split
      · exact same _ rfl rfl rfl
      · rename_i a b hk
        dsimp only
        have hcount : (s.books.eraseIdx k).count x + (if (a, b) = x then 1 else 0) = s.books.count x := by
          obtain ⟨hlt, hget⟩ := List.getElem?_eq_some_iff.mp hk
          have hsplit : s.books = s.books.take k ++ (a, b) :: s.books.drop (k + 1) := by
            rw [← hget]
            simp
          rw [List.eraseIdx_eq_take_drop_succ]
          conv => rhs; rw [hsplit]
          rw [List.count_append, List.count_append, List.count_cons]
          by_cases hx : (a, b) = x
          · simp [hx]; omega
          · simp [hx]
        have fin : ∀ rep : Reply, answered x (State.log { s with books := s.books.eraseIdx k } (.reply a b rep)).out + State.open (State.log { s with books := s.books.eraseIdx k } (.reply a b rep)) x ≤
            answered x s.out + s.open x + asked x [Op.resolved (D := D) k r] := by
          intro rep
          rw [answered_reply]
          unfold State.open
          show answered x s.out + _ + ((s.books.eraseIdx k).count x + (s.lookups.map (·.2)).count x) ≤ _
          omega
        split
        · exact fin _
        · exact fin _
    | lookup a b kind e cached =>
      have hask : asked x [Op.lookup a b kind e cached] = if (a, b) = x then 1 else 0 := by
        by_cases h : (a, b) = x <;> simp [asked, h]
      dsimp only
      rw [hask]
      unfold State.lookup
      split
      · rw [answered_reply]
        show _ + s.open x ≤ _
        omega
      · split
        · unfold State.open
          show answered x s.out + ((s.books ++ [(a, b)]).count x + _) ≤ _
          rw [List.count_append, List.count_singleton]
          by_cases h : (a, b) = x
          · simp [h]; omega
          · simp [h]
        · rcases ask_cases s e cached.isSome with ⟨_, h⟩ | ⟨_, _, h⟩ | ⟨_, _, h⟩
          · rw [h]
            exact Nat.le_add_right _ _
          · rw [h]
            dsimp only
            rw [answered_reply]
            show _ + s.open x ≤ _
            omega
          · rw [h]
            unfold State.open
            show answered x s.out + (s.books.count x + ((s.lookups.put e (a, b)).map (·.2)).count x) ≤ _
            have := count_put s.lookups e (a, b) x
            omega
    | found e value =>
      dsimp only
      unfold State.found
      split
      · dsimp only
        split
        · rename_i ms _
          obtain ⟨_, _, _, f4, f5, _, f7, _⟩ := fold_sent e e ms { s.over e with pending := (s.over e).pending.del e }
          exact same _ (f7 x) f5 f4
        · unfold State.answer
          split
          · rename_i a b hab
            rw [answered_reply]
            unfold State.open
            show answered x s.out + _ + (s.books.count x + ((s.lookups.del e).map (·.2)).count x) ≤ _
            have := count_del s.lookups e (a, b) x hab
            omega
          · exact same _ rfl rfl rfl
      · exact same _ rfl rfl rfl
    | notFound e =>
      dsimp only
      unfold State.notFound
      split
      · dsimp only
        split
        · exact same _ rfl rfl rfl
        · unfold State.answer
          split
          · rename_i a b hab
            rw [answered_reply]
            unfold State.open
            show answered x s.out + _ + (s.books.count x + ((s.lookups.del e).map (·.2)).count x) ≤ _
            have := count_del s.lookups e (a, b) x hab
            omega
          · exact same _ rfl rfl rfl
      · exact same _ rfl rfl rfl

/-- A lookup is not answered more often than it was asked for. -/
theorem C184_once {sid : Nat} {book : Bool} {keys : List Bytes} {opt : Option Bytes} {ls : Bytes} {s : State D} (h : State.new sid book keys opt ls = some s) (ops : List (Op D)) (x : Nat × Nat) :
    answered x (s.run ops).out ≤ asked x ops := by
  obtain ⟨_, ho, _, hlk, hb, _⟩ := new_inv h
  have key : ∀ (ops : List (Op D)) (s : State D), answered x (s.run ops).out + (s.run ops).open x ≤ answered x s.out + s.open x + asked x ops := by
    intro ops
    induction ops with
    | nil => intro s; exact Nat.le_add_right _ _
    | cons o ops ih =>
      intro s
      have h1 := ih (s.step o)
      have h2 := once_step x s o
      have h3 : asked x (o :: ops) = asked x [o] + asked x ops := asked_append x [o] ops
      rw [run_cons, h3]
      omega
  have := key ops s
  unfold State.open at this
  rw [ho, hlk, hb] at this
  have h0 : answered x ([.published ls] : List (Out D)) = 0 := rfl
  simp only [List.count_nil, List.map_nil] at this
  omega

/-- The lookup of a hash is answered at once if the lease set is there. -/
theorem C184_now (s : State D) (a b : Nat) (hash value : Bytes) (d : D) (hl : s.live = true) (hb : s.book = true) (hq : d ∉ s.queries) :
    (s.step (.lookup a b (.hash hash) d (some value))).out = s.out ++ [.reply a b (.success value)] := by
  unfold State.step
  rw [if_neg (by rw [hl]; simp)]
  dsimp only
  unfold State.lookup
  rw [if_neg (by rw [hb]; simp)]
  dsimp only
  unfold State.ask
  rw [if_neg hq]
  rfl

/-- A lookup that waits goes on waiting during steps that have nothing to do with it. -/
theorem waits_step {s : State D} (hi : Inv s) (d : D) (v : Nat × Nat) (hl : s.live = true) (hp : s.lookups.get d = some v) (hq : d ∈ s.queries) (o : Op D) (ho : quiet d o) :
    (s.step o).live = true ∧ (s.step o).lookups.get d = some v ∧ d ∈ (s.step o).queries := by
  have same : ∀ t : State D, t.live = s.live → t.lookups = s.lookups → t.queries = s.queries → t.live = true ∧ t.lookups.get d = some v ∧ d ∈ t.queries := by
    intro t h1 h2 h3
    rw [h1, h2, h3]
    exact ⟨hl, hp, hq⟩
  have hnone : s.pending.get d = none := by
    cases h : s.pending.get d with
    | none => rfl
    | some x =>
      have := hi.apart d (by rw [h]; rfl)
      rw [hp] at this
      cases this
  unfold State.step
  rw [if_neg (by rw [hl]; simp)]
  cases o with
  | getDate now => exact same _ rfl rfl rfl
  | getLimits => exact same _ rfl rfl rfl
  | destroy sid => exact same _ rfl rfl rfl
  | create => exact same _ rfl rfl rfl
  | leaseSet ls ks => exact same _ rfl rfl rfl
  | other => exact same _ rfl rfl rfl
  | poolDown => exact ho.elim
  | closed => exact ho.elim
  | query e c =>
    dsimp only
    rcases ask_cases s e c with ⟨_, h⟩ | ⟨_, _, h⟩ | ⟨_, _, h⟩
    · rw [h]; exact same _ rfl rfl rfl
    · rw [h]; exact same _ rfl rfl rfl
    · rw [h]; exact ⟨hl, hp, List.mem_cons_of_mem _ hq⟩
  | messages l =>
    obtain ⟨_, _, h2, h1, _, h3, _⟩ := payload_sent d l s
    exact same _ h3 h1 h2
  | requestLeaseSet leases =>
    dsimp only
    have hne : leases ≠ [] := ho
    unfold I2cpMessage.mkLeaseRequest
    rw [if_neg hne]
    exact same _ rfl rfl rfl
  | resolved k r =>
    dsimp only
    unfold State.resolved
    split
    · exact same _ rfl rfl rfl
    · dsimp only
      split <;> exact same _ rfl rfl rfl
  | lookup sid req kind e cached =>
    dsimp only
    unfold State.lookup
    split
    · exact same _ rfl rfl rfl
    · split
      · exact same _ rfl rfl rfl
      · rcases ask_cases s e cached.isSome with ⟨_, h⟩ | ⟨_, _, h⟩ | ⟨hm, _, h⟩
        · rw [h]; exact same _ rfl rfl rfl
        · rw [h]; exact same _ rfl rfl rfl
        · rw [h]
          refine ⟨hl, ?_, List.mem_cons_of_mem _ hq⟩
          show AMap.get (AMap.put s.lookups e _) d = _
          rw [AMap.get_put, if_neg (by rintro rfl; exact hm hq)]
          exact hp
  | send e data c =>
    dsimp only
    unfold State.send
    rcases ask_cases s e c with ⟨hm, h⟩ | ⟨hm, _, h⟩ | ⟨hm, _, h⟩
    · rw [h]
      dsimp only
      split
      · exact ⟨hl, hp, hq⟩
      · exact same _ rfl rfl rfl
    · rw [h]; exact same _ rfl rfl rfl
    · rw [h]; exact ⟨hl, hp, List.mem_cons_of_mem _ hq⟩
  | found e value =>
    have he : e ≠ d := ho
    dsimp only
    unfold State.found
    have hover : d ∈ (s.over e).queries := List.mem_filter.mpr ⟨hq, by simpa using fun x => he x.symm⟩
    split
    · dsimp only
      split
      · rename_i l hl'
        obtain ⟨_, _, f3, f4, _, f6, _⟩ := fold_sent e d l { s.over e with pending := (s.over e).pending.del e }
        rw [f3, f4, f6]
        exact ⟨hl, hp, hover⟩
      · unfold State.answer
        split
        · refine ⟨hl, ?_, hover⟩
          show AMap.get (AMap.del s.lookups e) d = _
          rw [AMap.get_del, if_neg (fun x => he x.symm)]
          exact hp
        · exact ⟨hl, hp, hover⟩
    · exact ⟨hl, hp, hq⟩
  | notFound e =>
    have he : e ≠ d := ho
    dsimp only
    unfold State.notFound
    have hover : d ∈ (s.over e).queries := List.mem_filter.mpr ⟨hq, by simpa using fun x => he x.symm⟩
    split
    · dsimp only
      split
      · exact ⟨hl, hp, hover⟩
      · unfold State.answer
        split
        · refine ⟨hl, ?_, hover⟩
          show AMap.get (AMap.del s.lookups e) d = _
          rw [AMap.get_del, if_neg (fun x => he x.symm)]
          exact hp
        · exact ⟨hl, hp, hover⟩
    · exact ⟨hl, hp, hq⟩

/-- If nobody was looking for the destination yet, the lookup of its hash is answered when the result is there. -/
theorem C184_later_partial {sid : Nat} {keys : List Bytes} {opt : Option Bytes} {ls : Bytes} {s : State D} (h : State.new sid true keys opt ls = some s) (ops more : List (Op D)) (d : D) (a b : Nat)
    (hash value : Bytes) (hl : (s.run ops).live = true) (hq : d ∉ (s.run ops).queries) (hm : ∀ o ∈ more, quiet d o) :
    (s.run (ops ++ .lookup a b (.hash hash) d none :: more ++ [.found d value])).out = (s.run (ops ++ .lookup a b (.hash hash) d none :: more)).out ++ [.reply a b (.success value)] ∧
    (s.run (ops ++ .lookup a b (.hash hash) d none :: more ++ [.notFound d])).out = (s.run (ops ++ .lookup a b (.hash hash) d none :: more)).out ++ [.reply a b (.failure 1)] := by
  have hbook : ∀ (ops : List (Op D)) (s : State D), (s.run ops).book = s.book := by
    have one : ∀ (o : Op D) (s : State D), (s.step o).book = s.book := by
      intro o s
      have hfold : ∀ (d : D) (ms : List Bytes) (s : State D), (ms.foldl (fun s data => s.log (.sent d data)) s).book = s.book := by
        intro d ms
        induction ms with
        | nil => intro s; rfl
        | cons m ms ih => intro s; exact ih _
      have hpay : ∀ (ms : List Bytes) (s : State D), (ms.foldl State.payload s).book = s.book := by
        intro ms
        induction ms with
        | nil => intro s; rfl
        | cons m ms ih => intro s; exact ih _
      have hask : ∀ d c, (s.ask d c).2.book = s.book := by
        intro d c
        rcases ask_cases s d c with ⟨_, h⟩ | ⟨_, _, h⟩ | ⟨_, _, h⟩ <;> rw [h]
      unfold State.step
      split
      · rfl
      · cases o with
        | lookup sid req kind e cached =>
          dsimp only
          unfold State.lookup
          split
          · rfl
          · split
            · rfl
            · rcases ask_cases s e cached.isSome with ⟨_, h⟩ | ⟨_, _, h⟩ | ⟨_, _, h⟩ <;> rw [h] <;> rfl
        | send e data c =>
          dsimp only
          unfold State.send
          rcases ask_cases s e c with ⟨_, h⟩ | ⟨_, _, h⟩ | ⟨_, _, h⟩
          · rw [h]
            dsimp only
            split <;> rfl
          · rw [h]; rfl
          · rw [h]
        | query e c => exact hask e c
        | messages ms => exact hpay ms s
        | requestLeaseSet l => dsimp only; split <;> rfl
        | resolved k r =>
          dsimp only
          unfold State.resolved
          split
          · rfl
          · dsimp only
            split <;> rfl
        | found e value =>
          dsimp only
          unfold State.found
          split
          · dsimp only
            split
            · exact hfold _ _ _
            · unfold State.answer
              split <;> rfl
          · rfl
        | notFound e =>
          dsimp only
          unfold State.notFound
          split
          · dsimp only
            split
            · rfl
            · unfold State.answer
              split <;> rfl
          · rfl
        | _ => rfl
    intro ops
    induction ops with
    | nil => intro s; rfl
    | cons o ops ih => intro s; rw [run_cons, ih, one]
  obtain ⟨hi, _, _, _, _, _, _, _, hb⟩ := new_inv h
  have hb : (s.run ops).book = true := (hbook ops s).trans hb
  have hi := hi.run ops
  simp only [run_append, run_cons]
  generalize s.run ops = t at hl hq hb hi
  have h0 : t.step (.lookup a b (.hash hash) d none) = { t with queries := d :: t.queries, lookups := t.lookups.put d (a, b) } := by
    unfold State.step
    rw [if_neg (by rw [hl]; simp)]
    dsimp only
    unfold State.lookup
    rw [if_neg (by rw [hb]; simp)]
    dsimp only
    unfold State.ask
    rw [if_neg hq]
    rfl
  have hi1 : Inv (t.step (.lookup a b (.hash hash) d none)) := hi.step _
  have start : (t.step (.lookup a b (.hash hash) d none)).live = true ∧ (t.step (.lookup a b (.hash hash) d none)).lookups.get d = some (a, b) ∧ d ∈ (t.step (.lookup a b (.hash hash) d none)).queries := by
    rw [h0]
    exact ⟨hl, by show AMap.get (AMap.put _ _ _) d = _; rw [AMap.get_put, if_pos rfl], List.mem_cons_self⟩
  generalize t.step (.lookup a b (.hash hash) d none) = u at hi1 start
  have wait : ∀ (more : List (Op D)) (u : State D), Inv u → u.live = true ∧ u.lookups.get d = some (a, b) ∧ d ∈ u.queries → (∀ o ∈ more, quiet d o) →
      Inv (u.run more) ∧ (u.run more).live = true ∧ (u.run more).lookups.get d = some (a, b) ∧ d ∈ (u.run more).queries := by
    intro more
    induction more with
    | nil => intro u hi h _; exact ⟨hi, h⟩
    | cons o more ih =>
      intro u hi h hm
      exact ih _ (hi.step o) (waits_step hi d (a, b) h.1 h.2.1 h.2.2 o (hm o List.mem_cons_self)) (fun o h => hm o (List.mem_cons_of_mem _ h))
  obtain ⟨hi2, w1, w2, w3⟩ := wait more u hi1 start hm
  generalize u.run more = v at hi2 w1 w2 w3
  have hnone : v.pending.get d = none := by
    cases h : v.pending.get d with
    | none => rfl
    | some x =>
      have := hi2.apart d (by rw [h]; rfl)
      rw [w2] at this
      cases this
  constructor
  · show (v.step (.found d value)).out = _
    unfold State.step
    rw [if_neg (by rw [w1]; simp)]
    dsimp only
    unfold State.found
    rw [if_pos w3]
    dsimp only
    rw [show (v.over d).pending.get d = none from hnone]
    dsimp only
    unfold State.answer
    rw [show (v.over d).lookups.get d = some (a, b) from w2]
    rfl
  · show (v.step (.notFound d)).out = _
    unfold State.step
    rw [if_neg (by rw [w1]; simp)]
    dsimp only
    unfold State.notFound
    rw [if_pos w3]
    dsimp only
    rw [show (v.over d).pending.get d = none from hnone]
    dsimp only
    unfold State.answer
    rw [show (v.over d).lookups.get d = some (a, b) from w2]
    rfl

/-- The lookup of a name is answered when the address book has an answer. -/
theorem C184_book (s : State D) (k : Nat) (a b : Nat) (r : Option Bytes) (hl : s.live = true) (hk : s.books[k]? = some (a, b)) :
    (s.step (.resolved k r)).out = s.out ++ [.reply a b (match r with | some v => .success v | none => .failure 1)] := by
  unfold State.step
  rw [if_neg (by rw [hl]; simp)]
  dsimp only
  unfold State.resolved
  rw [hk]
  dsimp only
  cases r <;> rfl

/-- A lookup of a hash that is already being looked for, by an earlier lookup, for a message or by the router itself, is never answered: nothing of it is kept. -/
theorem C184_forgotten_violated (s : State D) (a b : Nat) (hash : Bytes) (d : D) (c : Option Bytes) (hb : s.book = true) (hq : d ∈ s.queries) : s.step (.lookup a b (.hash hash) d c) = s := by
  unfold State.step
  split
  · rfl
  · dsimp only
    unfold State.lookup
    rw [if_neg (by rw [hb]; simp)]
    dsimp only
    unfold State.ask
    rw [if_pos hq]

/-- Without an address book the lookup of a hash fails even if the destination is known. -/
theorem C184_no_book_violated (s : State D) (a b : Nat) (hash value : Bytes) (d : D) (hl : s.live = true) (hb : s.book = false) :
    (s.step (.lookup a b (.hash hash) d (some value))).out = s.out ++ [.reply a b (.failure 1)] := by
  unfold State.step
  rw [if_neg (by rw [hl]; simp)]
  dsimp only
  unfold State.lookup
  rw [if_pos hb]
  rfl

/-! ## C185 -/

theorem delivered_append (a b : List (Out D)) : delivered (a ++ b) = delivered a ++ delivered b := List.filterMap_append

/-- Numbers from `n` on, modulo 2^32. -/
def numbered (n : Nat) : List Bytes → List (Nat × Bytes)
  | [] => []
  | m :: ms => (n % 2 ^ 32, m) :: numbered (n + 1) ms

theorem numbered_append (n : Nat) (a b : List Bytes) : numbered n (a ++ b) = numbered n a ++ numbered (n + a.length) b := by
  induction a generalizing n with
  | nil => rfl
  | cons m a ih =>
    show _ :: numbered (n + 1) (a ++ b) = _ :: (numbered (n + 1) a ++ _)
    rw [ih, List.length_cons, show n + 1 + a.length = n + (a.length + 1) by omega]

theorem delivered_log (s : State D) (o : Out D) (h : ∀ a b c, o ≠ .payload a b c) : delivered (s.log o).out = delivered s.out := by
  show delivered (s.out ++ [o]) = _
  rw [delivered_append]
  cases o with
  | payload a b c => exact absurd rfl (h a b c)
  | _ => exact List.append_nil _

theorem payload_fold (ms : List Bytes) : ∀ (n : Nat) (s : State D), s.nextId = n % 2 ^ 32 →
    delivered (ms.foldl State.payload s).out = delivered s.out ++ numbered n ms ∧ (ms.foldl State.payload s).nextId = (n + ms.length) % 2 ^ 32 := by
  induction ms with
  | nil => intro n s h; exact ⟨(List.append_nil _).symm, h⟩
  | cons m ms ih =>
    intro n s h
    obtain ⟨h1, h2⟩ := ih (n + 1) (s.payload m) (by
      show (s.nextId + 1) % 2 ^ 32 = _
      rw [h]
      omega)
    rw [List.foldl_cons, h1, h2]
    refine ⟨?_, by rw [List.length_cons]; congr 1; omega⟩
    have : delivered (s.payload m).out = delivered s.out ++ [(n % 2 ^ 32, m)] := by
      show delivered (s.out ++ [.payload s.sid s.nextId m]) = _
      rw [delivered_append, h]
      rfl
    rw [this]
    show _ ++ _ ++ _ = _ ++ (_ :: _)
    simp

theorem step_delivered (n : Nat) (s : State D) (o : Op D) (h : s.nextId = n % 2 ^ 32) (hl : s.live = true) :
    delivered (s.step o).out = delivered s.out ++ numbered n (arrived [o]) ∧ (s.step o).nextId = (n + (arrived [o]).length) % 2 ^ 32 := by
  have same : ∀ t : State D, arrived [o] = [] → delivered t.out = delivered s.out → t.nextId = s.nextId →
      delivered t.out = delivered s.out ++ numbered n (arrived [o]) ∧ t.nextId = (n + (arrived [o]).length) % 2 ^ 32 := by
    intro t h0 h1 h2
    rw [h0, h1, h2]
    exact ⟨(List.append_nil _).symm, h⟩
  unfold State.step
  rw [if_neg (by rw [hl]; simp)]
  cases o with
  | getDate now => exact same _ rfl (delivered_log _ _ (by intro a b c h; cases h)) rfl
  | getLimits => exact same _ rfl (delivered_log _ _ (by intro a b c h; cases h)) rfl
  | destroy sid => exact same _ rfl (delivered_log _ _ (by intro a b c h; cases h)) rfl
  | create => exact same _ rfl (delivered_log _ _ (by intro a b c h; cases h)) rfl
  | leaseSet ls ks => exact same _ rfl (delivered_log _ _ (by intro a b c h; cases h)) rfl
  | other => exact same _ rfl rfl rfl
  | poolDown => exact same _ rfl rfl rfl
  | closed => exact same _ rfl rfl rfl
  | query e c =>
    obtain ⟨a1, _, _, _, _, a6, _⟩ := ask_core s e c
    exact same _ rfl (by rw [a1]) a6
  | messages ms =>
    have := payload_fold ms n s h
    rw [show arrived [Op.messages (D := D) ms] = ms by simp [arrived]]
    exact this
  | requestLeaseSet leases =>
    dsimp only
    split
    · exact same _ rfl (delivered_log _ _ (by intro a b c h; cases h)) rfl
    · exact same _ rfl rfl rfl
  | resolved k r =>
    dsimp only
    unfold State.resolved
    split
    · exact same _ rfl rfl rfl
    · dsimp only
      split
      · exact same _ rfl (delivered_log { s with books := s.books.eraseIdx k } _ (by intro a b c h; cases h)) rfl
      · exact same _ rfl (delivered_log { s with books := s.books.eraseIdx k } _ (by intro a b c h; cases h)) rfl
  | lookup sid req kind e cached =>
    dsimp only
    unfold State.lookup
    split
    · exact same _ rfl (delivered_log _ _ (by intro a b c h; cases h)) rfl
    · split
      · exact same _ rfl rfl rfl
      · rcases ask_cases s e cached.isSome with ⟨_, h⟩ | ⟨_, _, h⟩ | ⟨_, _, h⟩
        · rw [h]; exact same _ rfl rfl rfl
        · rw [h]; exact same _ rfl (delivered_log _ _ (by intro a b c h; cases h)) rfl
        · rw [h]; exact same _ rfl rfl rfl
  | send e data c =>
    dsimp only
    unfold State.send
    rcases ask_cases s e c with ⟨_, h⟩ | ⟨_, _, h⟩ | ⟨_, _, h⟩
    · rw [h]
      dsimp only
      split <;> exact same _ rfl rfl rfl
    · rw [h]; exact same _ rfl (delivered_log _ _ (by intro a b c h; cases h)) rfl
    · rw [h]; exact same _ rfl rfl rfl
  | found e value =>
    dsimp only
    unfold State.found
    split
    · dsimp only
      split
      · rename_i l hl'
        obtain ⟨_, _, _, _, _, _, _, f8, f9⟩ := fold_sent e e l { s.over e with pending := (s.over e).pending.del e }
        exact same _ rfl f8 f9
      · unfold State.answer
        split
        · exact same _ rfl (delivered_log { s.over e with lookups := (s.over e).lookups.del e } _ (by intro a b c h; cases h)) rfl
        · exact same _ rfl rfl rfl
    · exact same _ rfl rfl rfl
  | notFound e =>
    dsimp only
    unfold State.notFound
    split
    · dsimp only
      split
      · exact same _ rfl rfl rfl
      · unfold State.answer
        split
        · exact same _ rfl (delivered_log { s.over e with lookups := (s.over e).lookups.del e } _ (by intro a b c h; cases h)) rfl
        · exact same _ rfl rfl rfl
    · exact same _ rfl rfl rfl

/-- The client gets the messages that arrive for its destination, each once, in order, with ids that count up from 0. -/
theorem C185_delivered {sid : Nat} {book : Bool} {keys : List Bytes} {opt : Option Bytes} {ls : Bytes} {s : State D} (h : State.new sid book keys opt ls = some s) (ops : List (Op D))
    (hl : (s.run ops).live = true) : delivered (s.run ops).out = numbered 0 (arrived ops) := by
  obtain ⟨_, ho, _, _, _, hn, _, _⟩ := new_inv h
  have dead : ∀ (ops : List (Op D)) (s : State D), (s.run ops).live = true → s.live = true := by
    intro ops
    induction ops with
    | nil => intro s h; exact h
    | cons o ops ih =>
      intro s h
      cases hs : s.live with
      | true => rfl
      | false =>
        have := ih (s.step o) h
        rw [step_live s o hs, hs] at this
        exact this
  have key : ∀ (ops : List (Op D)) (n : Nat) (s : State D), s.nextId = n % 2 ^ 32 → (s.run ops).live = true → delivered (s.run ops).out = delivered s.out ++ numbered n (arrived ops) := by
    intro ops
    induction ops with
    | nil => intro n s _ _; exact (List.append_nil _).symm
    | cons o ops ih =>
      intro n s hn hl
      obtain ⟨h1, h2⟩ := step_delivered n s o hn (dead (o :: ops) s hl)
      rw [run_cons, ih _ (s.step o) h2 hl, h1]
      have h3 : arrived (o :: ops) = arrived [o] ++ arrived ops := by
        unfold arrived
        rw [← List.flatMap_append]
        rfl
      rw [h3, numbered_append, List.append_assoc]
  have := key ops 0 s hn hl
  rw [this, ho]
  rfl

/-! ## C186 -/

/-- The answers to what the client asks about the router and the session. -/
theorem C186_answers (s : State D) (now : Nat) (hl : s.live = true) :
    s.step (.getDate now) = s.log (.date now) ∧ s.step .getLimits = s.log .limits ∧ s.step .create = s.log (.status s.sid .refused) := by
  refine ⟨?_, ?_, ?_⟩ <;> (unfold State.step; rw [if_neg (by rw [hl]; simp)])

/-- A new lease set is published. -/
theorem C186_published (s : State D) (ls : Bytes) (ks : List Bytes) (hl : s.live = true) : (s.step (.leaseSet ls ks)).out = s.out ++ [.published ls] := by
  unfold State.step
  rw [if_neg (by rw [hl]; simp)]
  rfl

theorem key_step (s : State D) (o : Op D) : (s.step o).key = s.key := by
  have hfold : ∀ (d : D) (ms : List Bytes) (s : State D), (ms.foldl (fun s data => s.log (.sent d data)) s).key = s.key := by
    intro d ms
    induction ms with
    | nil => intro s; rfl
    | cons m ms ih => intro s; exact ih _
  have hpay : ∀ (ms : List Bytes) (s : State D), (ms.foldl State.payload s).key = s.key := by
    intro ms
    induction ms with
    | nil => intro s; rfl
    | cons m ms ih => intro s; exact ih _
  unfold State.step
  split
  · rfl
  · cases o with
    | lookup sid req kind e cached =>
      dsimp only
      unfold State.lookup
      split
      · rfl
      · split
        · rfl
        · rcases ask_cases s e cached.isSome with ⟨_, h⟩ | ⟨_, _, h⟩ | ⟨_, _, h⟩ <;> rw [h] <;> rfl
    | send e data c =>
      dsimp only
      unfold State.send
      rcases ask_cases s e c with ⟨_, h⟩ | ⟨_, _, h⟩ | ⟨_, _, h⟩
      · rw [h]
        dsimp only
        split <;> rfl
      · rw [h]; rfl
      · rw [h]
    | query e c =>
      dsimp only
      rcases ask_cases s e c with ⟨_, h⟩ | ⟨_, _, h⟩ | ⟨_, _, h⟩ <;> rw [h]
    | messages ms => exact hpay ms s
    | requestLeaseSet l => dsimp only; split <;> rfl
    | resolved k r =>
      dsimp only
      unfold State.resolved
      split
      · rfl
      · dsimp only
        split <;> rfl
    | found e value =>
      dsimp only
      unfold State.found
      split
      · dsimp only
        split
        · exact hfold _ _ _
        · unfold State.answer
          split <;> rfl
      · rfl
    | notFound e =>
      dsimp only
      unfold State.notFound
      split
      · dsimp only
        split
        · rfl
        · unfold State.answer
          split <;> rfl
      · rfl
    | _ => rfl

/-- The session decrypts with the first key of the first lease set for ever: the keys that come with a later lease set, which is published all the same, are ignored. -/
theorem C186_key_violated {sid : Nat} {book : Bool} {k : Bytes} {ks : List Bytes} {opt : Option Bytes} {ls : Bytes} {s : State D} (h : State.new sid book (k :: ks) opt ls = some s)
    (ops : List (Op D)) : (s.run ops).key = k := by
  have h0 : s.key = k := by
    cases h
    rfl
  have : ∀ (ops : List (Op D)) (s : State D), (s.run ops).key = s.key := by
    intro ops
    induction ops with
    | nil => intro s; rfl
    | cons o ops ih => intro s; rw [run_cons, ih, key_step]
  rw [this, h0]

/-- A session that is destroyed, whichever id the client gives, goes on: all that happens is that the client is told that it is destroyed. -/
theorem C186_destroy_violated (s : State D) (sid : Nat) (hl : s.live = true) :
    s.step (.destroy sid) = { s with out := s.out ++ [.status sid .destroyed] } ∧
    ∀ data, (s.run [.destroy sid, .messages [data]]).out = s.out ++ [.status sid .destroyed, .payload s.sid s.nextId data] := by
  have h : s.step (.destroy sid) = { s with out := s.out ++ [.status sid .destroyed] } := by
    unfold State.step
    rw [if_neg (by rw [hl]; simp)]
    rfl
  refine ⟨h, fun data => ?_⟩
  show ((s.step (.destroy sid)).step (.messages [data])).out = _
  rw [h]
  unfold State.step
  rw [if_neg (by rw [hl]; simp)]
  show (s.out ++ [.status sid .destroyed]) ++ [.payload s.sid s.nextId data] = _
  simp

/-- A session whose client has closed the connection, or whose tunnel pool has gone, ends: nothing is done for it any more. -/
theorem C186_closed (s : State D) (hl : s.live = true) (o : Op D) (ho : o = .closed ∨ o = .poolDown) (ops : List (Op D)) :
    (s.step o).live = false ∧ (s.run (o :: ops)).out = s.out := by
  have h : s.step o = { s with live := false } := by
    unfold State.step
    rw [if_neg (by rw [hl]; simp)]
    rcases ho with rfl | rfl <;> rfl
  refine ⟨by rw [h], ?_⟩
  rw [run_cons, h]
  generalize hq : ({ s with live := false } : State D) = q
  have hql : q.live = false := by rw [← hq]
  have hqo : q.out = s.out := by rw [← hq]
  rw [← hqo]
  clear hq hqo h
  induction ops with
  | nil => rfl
  | cons o ops ih =>
    have : q.step o = q := by
      unfold State.step
      rw [if_pos (by rw [hql])]
    rw [run_cons, this, ih]

/-- A lease set is kept from the network database unless the client says otherwise; I2CP publishes by default. -/
theorem C186_default_violated {sid : Nat} {book : Bool} {keys : List Bytes} {ls : Bytes} {s : State D} (h : State.new sid book keys none ls = some s) : s.unpublished = true := by
  unfold State.new at h
  split at h
  · cases h
  · cases h
    rfl

/-- A lease set without keys ends the task that starts the session. -/
theorem C186_no_key_violated (sid : Nat) (book : Bool) (opt : Option Bytes) (ls : Bytes) : (State.new sid book [] opt ls : Option (State D)) = none := rfl

/-! ## The hypotheses are met -/

def toy : State Nat := { sid := 3, book := true, key := [1], unpublished := true, out := [.published [9]] }

example : State.new 3 true [[1]] none [9] = some toy := rfl
example := C186_closed toy rfl .closed (.inl rfl) [.send 5 [1] false, .messages [[7]]]

example : (toy.run [.send 5 [1] false, .send 6 [2] true, .send 5 [3] false, .messages [[7], [8]], .found 5 [], .send 5 [4] true]).out =
    [.published [9], .sent 6 [2], .payload 3 0 [7], .payload 3 1 [8], .sent 5 [1], .sent 5 [3], .sent 5 [4]] := by decide +kernel

example : (toy.run [.lookup 3 1 (.hash []) 5 none, .lookup 3 2 (.name []) 0 none, .lookup 3 3 (.hash []) 5 none, .resolved 0 none, .found 5 [6]]).out =
    [.published [9], .reply 3 2 (.failure 1), .reply 3 1 (.success [6])] := by decide +kernel

example := C183_later_partial (s := toy) (rfl : State.new 3 true [[1]] none [9] = some toy) [.getLimits] [.send 5 [2] false, .messages [[7]]] 5 [1] [] rfl (by decide)
  (by simp [quiet])
example := C184_later_partial (s := toy) (rfl : State.new 3 true [[1]] none [9] = some toy) [.getLimits] [.send 6 [2] false] 5 3 1 [] [4] rfl (by decide) (by simp [quiet])

end Emissary.I2cpSession
