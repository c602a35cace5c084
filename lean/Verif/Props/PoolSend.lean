import Verif.Model.PoolSend
import Verif.Props.Pool
import Verif.Props.HopLoop
/-!
# C270: what a tunnel pool sends for its owner
-/
namespace Emissary.PoolSend
open Emissary Emissary.Tunnel Emissary.Routing

/-! ## Specification -/

/-- A pool when it is created. -/
def State.init (numIn numOut now : Nat) : State := { pool := Pool.State.init numIn numOut now }

/-- `sent` is the message of `m`, in pieces, encrypted for the hops of the tunnel `t` and for no other, all sent to the first hop; the endpoint is told to give
it to the router or tunnel that `m` names; the feedback channel of `m`, if any, goes with the first piece and with no other. -/
def SentWith (A : Aes) (sha : Sha) (t : OutTunnel) (m : Msg) (d : Draw) (sent : List (Hop.Out × Option Nat)) : Prop :=
  ∃ (di : DI) (bytes : Bytes), sent.map (·.1) =
      Hop.ownerSends A sha ((t.first :: t.rest).map (·.keys)) t.first.router t.first.id t.padding di bytes d.now d.ids d.rnd ∧
    (match m with
      | .router _ r b _ => di = .router r ∧ bytes = b
      | .tunnel r id b => di = .tunnel id r ∧ bytes = b
      | .routerVia _ r b => di = .router r ∧ bytes = b
      | .tunnelVia _ r id b => di = .tunnel id r ∧ bytes = b
      | .inbound _ => False) ∧
    (sent.map (·.2)).tail.all (·.isNone) ∧
    ∀ x ∈ (sent.map (·.2)).head?, x = (match m with | .router _ _ _ f => f | _ => none)

/-- The same for some time and some random values. -/
def SentOver (A : Aes) (sha : Sha) (t : OutTunnel) (m : Msg) (sent : List (Hop.Out × Option Nat)) : Prop := ∃ d, SentWith A sha t m d sent

/-- The outbound tunnel that a message names. -/
def asked : Msg → Option Nat
  | .router g _ _ _ => some g
  | .routerVia out _ _ => out
  | .tunnelVia out _ _ _ => out
  | _ => none

/-- The message must not go over another tunnel than the one that it names. -/
def strict : Msg → Bool
  | .router _ _ _ _ => true
  | _ => false

/-- A message that is to be sent. -/
def outgoing : Msg → Bool
  | .inbound _ => false
  | _ => true

/-- What becomes of the pieces `sent`, which carry `M` for `di`: the participants `stops` pass them on, and in whatever order they reach the endpoint with the keys `last`, whatever else
reaches it before, with the last one the endpoint sends `M` on, once, to the router or tunnel `di`, unless `M` has expired; and nothing with the pieces before. -/
def Reaches (A : Aes) (sha : Sha) (stops : List Hop.Stop) (last : Keys) (M : I2np.Message) (di : DI) (mid : Nat) (sent : List Hop.Out) : Prop :=
  ∃ (arrived : List I2np.Message) (frags : List Block), arrived ≠ [] ∧
    sent.map (fun o => (Hop.received o).bind (Hop.carry A stops)) = arrived.map some ∧
    arrived.map (Hop.opened A sha last) = frags.map (fun f => [f]) ∧
    ∀ (os : List Hop.Op) (t : Hop.Task) (i : Hop.In) (b : Block), Hop.Task.run A sha false { role := .endpoint last } os = some t → t.over = false →
      Hop.opened A sha last i.m = [b] → Hop.Clock i.now → (∀ k, i.ids k < 2 ^ 32) →
      Hop.Completes frags mid ((Hop.messages os).flatMap (Hop.opened A sha last)) b →
      ∃ t' out, t.step A sha false (.message i) = some t' ∧ t'.sent = t.sent ++ out ∧
        (i.now ≤ M.expiration → ∃ o, out = [o] ∧ Hop.Delivers M di o) ∧ (M.expiration < i.now → out = []) ∧
        ∀ (os1 os2 : List Hop.Op) (j : Hop.In) (f : Block) (t1 : Hop.Task), os = os1 ++ .message j :: os2 → Hop.opened A sha last j.m = [f] → f ∈ frags →
          Hop.Task.run A sha false { role := .endpoint last } os1 = some t1 →
          ∃ t2, t1.step A sha false (.message j) = some t2 ∧ t2.sent = t1.sent

/-- The clock shows a time before 2106 and the random values are in range. -/
structure Draw.Ok (d : Draw) : Prop where
  now : Hop.Clock d.now
  ids : ∀ k, d.ids k < 2 ^ 32
  rnd : d.rnd.Ok

/-! ## Lemmas -/

theorem results_out (s : Pool.State) (i : Pool.Input) :
    (s.results i).outbound = (i.outs.foldl (Pool.State.outResult i.now) { s with clock := i.now, failed := 0 }).outbound := by
  have h1 : ∀ (l : List (Nat × Option (Nat × Nat))) (s : Pool.State), (l.foldl (Pool.State.inResult i.now) s).outbound = s.outbound := by
    intro l
    induction l with
    | nil => intro s; rfl
    | cons r l ih =>
      intro s
      rw [List.foldl_cons, ih]
      unfold Pool.State.inResult
      split
      · rfl
      · dsimp only
        split <;> rfl
  have h2 : ∀ (l : List Pool.Inbound) (s : Pool.State), (l.foldl (Pool.State.expire i.now) s).outbound = s.outbound := by
    intro l
    induction l with
    | nil => intro s; rfl
    | cons r l ih =>
      intro s
      rw [List.foldl_cons, ih]
      unfold Pool.State.expire
      split <;> rfl
  unfold Pool.State.results
  dsimp only
  rw [h2, h1]

/-- Every outbound tunnel has an entry, which was made. -/
def Known (outbound : List Nat) (tunnels : AMap Nat OutTunnel) (made : List (Nat × OutTunnel)) : Prop :=
  ∀ id ∈ outbound, ∃ t, tunnels.get id = some t ∧ (id, t) ∈ made

theorem fold_built (now : Nat) (built : Nat → OutTunnel) (l : List (Nat × Bool)) : ∀ x : Pool.State × AMap Nat OutTunnel × List (Nat × OutTunnel),
    Known x.1.outbound x.2.1 x.2.2 →
    (l.foldl (insertBuilt now built) x).1 = l.foldl (Pool.State.outResult now) x.1 ∧
    Known (l.foldl (insertBuilt now built) x).1.outbound (l.foldl (insertBuilt now built) x).2.1 (l.foldl (insertBuilt now built) x).2.2 ∧
    (∀ y ∈ x.2.2, y ∈ (l.foldl (insertBuilt now built) x).2.2) := by
  induction l with
  | nil => intro x h; exact ⟨rfl, h, fun _ h => h⟩
  | cons r l ih =>
    intro x h
    simp only [List.foldl_cons]
    have key : Known (insertBuilt now built x r).1.outbound (insertBuilt now built x r).2.1 (insertBuilt now built x r).2.2 := by
      unfold insertBuilt
      dsimp only
      unfold Pool.State.outResult
      by_cases hp : r.1 ∈ x.1.pendingOut
      · rw [if_neg (not_not.2 hp)]
        cases hr : r.2 with
        | true =>
          dsimp only
          rw [if_pos rfl, if_pos ⟨hp, rfl⟩]
          intro id hid
          have hid : id ∈ Pool.ins r.1 x.1.outbound := hid
          rw [Pool.mem_ins] at hid
          by_cases e : id = r.1
          · subst e
            exact ⟨built r.1, by simp, by simp⟩
          · obtain ⟨t, h1, h2⟩ := h id (hid.resolve_left e)
            exact ⟨t, by simp [e, h1], by simp [h2]⟩
        | false =>
          dsimp only
          rw [if_neg (by simp), if_neg (by simp)]
          exact h
      · rw [if_pos hp, if_neg (fun e => hp e.1)]
        exact h
    obtain ⟨h1, h2, h3⟩ := ih _ key
    refine ⟨h1, h2, fun y hy => h3 y ?_⟩
    unfold insertBuilt
    dsimp only
    split
    · exact List.mem_append_left _ hy
    · exact hy

theorem grown_known {s : State} (h : Known s.pool.outbound s.tunnels s.made) (i : Pool.Input) (built : Nat → OutTunnel) :
    Known (s.pool.results i).outbound (s.grown i built).1 (s.grown i built).2 ∧ ∀ y ∈ s.made, y ∈ (s.grown i built).2 := by
  obtain ⟨h1, h2, h3⟩ := fold_built i.now built i.outs ({ s.pool with clock := i.now, failed := 0 }, s.tunnels, s.made) h
  rw [results_out]
  dsimp only at h1
  rw [h1] at h2
  exact ⟨h2, h3⟩

theorem anyOf_mem {outbound : List Nat} {first id : Nat} (h : anyOf outbound first = some id) : id ∈ outbound := by
  unfold anyOf at h
  split at h
  · cases h; assumption
  · exact List.mem_of_head? h

theorem anyOf_some {outbound : List Nat} (first : Nat) (h : outbound ≠ []) : ∃ id, anyOf outbound first = some id := by
  unfold anyOf
  split
  · exact ⟨_, rfl⟩
  · cases outbound with
    | nil => exact absurd rfl h
    | cons a l => exact ⟨a, rfl⟩

theorem choose_mem {chk : Bool} {outbound : List Nat} {first id : Nat} {m : Msg} (h : choose chk outbound first m = some (some id)) : id ∈ outbound := by
  have hv : ∀ o, via chk outbound first o = some (some id) → id ∈ outbound := by
    intro o ho
    cases o with
    | none => exact anyOf_mem (Option.some.inj ho)
    | some g =>
      unfold via at ho
      dsimp only at ho
      split at ho
      · cases ho; assumption
      · split at ho
        · cases ho
        · exact anyOf_mem (Option.some.inj ho)
  cases m with
  | router g r b f =>
    simp only [choose, Option.some.injEq] at h
    split at h
    · cases h; assumption
    · cases h
  | tunnel r i b => exact anyOf_mem (Option.some.inj h)
  | routerVia o r b => exact hv o h
  | tunnelVia o r i b => exact hv o h
  | inbound m => cases h

theorem choose_asked {chk : Bool} {outbound : List Nat} {first id : Nat} {m : Msg} (h : asked m = some id) (hid : id ∈ outbound) :
    choose chk outbound first m = some (some id) := by
  cases m with
  | router g r b f =>
    cases h
    simp [choose, hid]
  | tunnel r i b => cases h
  | routerVia o r b =>
    have h : o = some id := h
    subst h
    simp [choose, via, hid]
  | tunnelVia o r i b =>
    have h : o = some id := h
    subst h
    simp [choose, via, hid]
  | inbound m => cases h

theorem sentOver_send (A : Aes) (sha : Sha) (t : OutTunnel) (m : Msg) (di : DI) (bytes : Bytes) (d : Draw) (h : m.order = some (di, bytes)) :
    SentWith A sha t m d (withFeedback m.feedback (t.send A sha di bytes d)) := by
  have h1 : ∀ f os, (withFeedback f os).map (·.1) = os := by
    intro f os
    cases os with
    | nil => rfl
    | cons o os => simp only [withFeedback, List.map_cons, List.map_map]; congr 1; exact List.map_id _
  have h2 : ∀ f os, ((withFeedback f os).map (·.2)).tail.all (·.isNone) = true := by
    intro f os
    cases os with
    | nil => rfl
    | cons o os => simp [withFeedback]
  have h3 : ∀ f os, ∀ x ∈ ((withFeedback f os).map (·.2)).head?, x = f := by
    intro f os x hx
    cases os with
    | nil => cases hx
    | cons o os => simpa [withFeedback, eq_comm] using hx
  refine ⟨di, bytes, h1 _ _, ?_, h2 _ _, ?_⟩
  · cases m <;> simp only [Msg.order, Option.some.injEq, Prod.mk.injEq, reduceCtorEq] at h <;> exact ⟨h.1.symm, h.2.symm⟩
  · intro x hx
    rw [h3 _ _ x hx]
    cases m <;> rfl

theorem order_none {m : Msg} (h : m.order = none) : outgoing m = false := by
  cases m <;> simp [Msg.order, outgoing] at h ⊢

/-- One message, with tunnels that are known. -/
theorem handle_spec (A : Aes) (sha : Sha) {chk : Bool} {outbound : List Nat} {tunnels : AMap Nat OutTunnel} {made : List (Nat × OutTunnel)}
    (hk : Known outbound tunnels made) {d : Draw} {m : Msg} {h : Handled} (e : handle A sha chk outbound tunnels d m = some h) :
    h.msg = m ∧ ((∃ id t, id ∈ outbound ∧ (id, t) ∈ made ∧ tunnels.get id = some t ∧ (∀ g, asked m = some g → g ∈ outbound → id = g) ∧
        (strict m = true → asked m = some id) ∧ SentWith A sha t m d h.sent) ∨
      (h.sent = [] ∧ (outgoing m = true → outbound = [] ∨ (strict m = true ∧ ∀ g, asked m = some g → g ∉ outbound)))) := by
  unfold handle at e
  cases hc : choose chk outbound d.first m with
  | none => rw [hc] at e; cases e
  | some c =>
    rw [hc] at e
    simp only [Option.bind_eq_bind, Option.bind_some] at e
    cases c with
    | none =>
      simp only [Option.bind_none] at e
      cases e
      refine ⟨rfl, .inr ⟨rfl, fun ho => ?_⟩⟩
      have hany : anyOf outbound d.first = none → outbound = [] := by
        intro ha
        by_cases h0 : outbound = []
        · exact h0
        · obtain ⟨id, hid⟩ := anyOf_some d.first h0
          rw [hid] at ha; cases ha
      have hv : ∀ o, via chk outbound d.first o = some none → outbound = [] := by
        intro o ho
        cases o with
        | none => exact hany (Option.some.inj ho)
        | some g =>
          unfold via at ho
          dsimp only at ho
          split at ho
          · cases ho
          · split at ho
            · cases ho
            · exact hany (Option.some.inj ho)
      cases m with
      | router g r b f =>
        simp only [choose, Option.some.injEq] at hc
        split at hc
        · cases hc
        · rename_i hn
          exact .inr ⟨rfl, fun g' hg' => by cases hg'; exact hn⟩
      | tunnel r i b => exact .inl (hany (Option.some.inj hc))
      | routerVia o r b => exact .inl (hv o hc)
      | tunnelVia o r i b => exact .inl (hv o hc)
      | inbound m => cases ho
    | some id =>
      have hid := choose_mem hc
      obtain ⟨t, h1, h2⟩ := hk id hid
      simp only [Option.bind_some, h1] at e
      cases ho : m.order with
      | none =>
        rw [ho] at e
        cases e
        exact ⟨rfl, .inr ⟨rfl, fun hx => by rw [order_none ho] at hx; cases hx⟩⟩
      | some x =>
        rw [ho] at e
        cases e
        refine ⟨rfl, .inl ⟨id, t, hid, h2, h1, ?_, ?_, sentOver_send A sha t m x.1 x.2 d ho⟩⟩
        · intro g hg hgo
          rw [choose_asked hg hgo] at hc
          cases hc; rfl
        · intro hs
          cases m with
          | router g r b f =>
            simp only [choose, Option.some.injEq] at hc
            split at hc
            · cases hc; rfl
            · cases hc
          | _ => cases hs

theorem loop_account (A : Aes) (sha : Sha) (chk : Bool) (outbound : List Nat) (tunnels : AMap Nat OutTunnel) (ds : Nat → Draw) (l : List Msg) : ∀ k,
    (∀ h ∈ (loop A sha chk outbound tunnels ds k l).1, h.sent = [] ∨ ∃ k' m, handle A sha chk outbound tunnels (ds k') m = some h) ∧
    l = (loop A sha chk outbound tunnels ds k l).1.map (·.msg) ++ (loop A sha chk outbound tunnels ds k l).2.getD [] := by
  induction l with
  | nil => intro k; exact ⟨nofun, rfl⟩
  | cons m ms ih =>
    intro k
    unfold loop
    cases hh : handle A sha chk outbound tunnels (ds k) m with
    | none =>
      refine ⟨fun h hm => ?_, rfl⟩
      simp only [List.mem_singleton] at hm
      subst hm
      exact .inl rfl
    | some h =>
      obtain ⟨h1, h2⟩ := ih (k + 1)
      refine ⟨fun x hx => ?_, ?_⟩
      · simp only [List.mem_cons] at hx
        rcases hx with rfl | hx
        · exact .inr ⟨k, m, hh⟩
        · exact h1 x hx
      · have hm : h.msg = m := by
          unfold handle at hh
          cases hc : choose chk outbound (ds k).first m with
          | none => rw [hc] at hh; cases hh
          | some c =>
            rw [hc] at hh
            simp only [Option.bind_eq_bind, Option.bind_some] at hh
            split at hh <;> cases hh <;> rfl
        simp only [List.map_cons, List.cons_append, hm]
        rw [← h2]

theorem fire_sub (now : Nat) (l : List (Nat × Pool.Timer)) : ∀ (s : Pool.State), ∀ id ∈ (l.foldl (Pool.State.fire now) s).outbound, id ∈ s.outbound := by
  induction l with
  | nil => intro s id h; exact h
  | cons x l ih =>
    intro s id h
    rw [List.foldl_cons] at h
    have h := ih _ id h
    unfold Pool.State.fire at h
    split at h
    · exact h
    · dsimp only at h
      split at h
      · exact ((Pool.mem_del _ _ _).1 h).1
      · exact h
      · exact h

theorem maintain_out (s : Pool.State) (i : Pool.Input) : (s.maintain i).outbound = s.outbound := by
  unfold Pool.State.maintain
  dsimp only
  split <;> rfl

theorem finish_out (s : Pool.State) (i : Pool.Input) : (s.finish i).1.outbound = s.outbound := by
  unfold Pool.State.finish
  split
  · rfl
  · split
    · exact maintain_out _ i
    · split
      · exact maintain_out _ i
      · rfl

theorem poll_sub (chk : Bool) (s : Pool.State) (i : Pool.Input) (hr : s.running = true) :
    ∀ id ∈ (s.poll chk i).1.outbound, id ∈ (s.results i).outbound := by
  intro id h
  unfold Pool.State.poll at h
  rw [hr] at h
  simp only [Bool.not_true, Bool.false_eq_true, if_false] at h
  split at h
  · exact h
  · split at h
    · exact h
    · rw [finish_out] at h
      exact (show id ∈ (s.results i).outbound from by
        have := fire_sub i.now i.fired _ id h
        exact this)

theorem results_log {s : Pool.State} (h : Pool.LogInv s) (i : Pool.Input) : Pool.LogInv (s.results i) := by
  have h0 : Pool.LogInv { s with clock := i.now, failed := 0 } := ⟨h.out, h.inn, h.eo, h.ei, h.acc⟩
  have h1 := Pool.foldl_inv (P := Pool.LogInv) (fun b a hb => Pool.LogInv.outResult hb i.now a) i.outs _ h0
  have h2 := Pool.foldl_inv (P := Pool.LogInv) (fun b a hb => Pool.LogInv.inResult hb i.now a) i.ins _ h1
  exact Pool.foldl_inv (P := Pool.LogInv) (fun b a hb => Pool.LogInv.expire hb i.now a) i.ended _ h2

structure Inv (A : Aes) (sha : Sha) (s : State) : Prop where
  known : Known s.pool.outbound s.tunnels s.made
  log : Pool.LogInv s.pool
  sent : ∀ h ∈ s.handled, h.sent = [] ∨ ∃ id t, (id, t) ∈ s.made ∧ (strict h.msg = true → asked h.msg = some id) ∧ SentOver A sha t h.msg h.sent
  account : s.accepted = s.handled.map (·.msg) ++ s.queue.queue
  closed : s.queue.closed = !s.pool.running

theorem inv_init (A : Aes) (sha : Sha) (numIn numOut now : Nat) : Inv A sha (State.init numIn numOut now) :=
  ⟨nofun, Pool.logInv_run true numIn numOut now [], nofun, rfl, rfl⟩

theorem inv_poll {A : Aes} {sha : Sha} {s : State} (h : Inv A sha s) (chk : Bool) (i : Pool.Input) (built : Nat → OutTunnel) (ds : Nat → Draw) :
    Inv A sha (s.poll A sha chk i built ds) := by
  unfold State.poll
  by_cases hr : s.pool.running = true
  case neg => rw [if_pos (by simpa using hr)]; exact h
  rw [if_neg (by simp [hr])]
  obtain ⟨hk, hm⟩ := grown_known h.known i built
  have hsent : ∀ x ∈ s.handled, x.sent = [] ∨ ∃ id t, (id, t) ∈ (s.grown i built).2 ∧ (strict x.msg = true → asked x.msg = some id) ∧ SentOver A sha t x.msg x.sent := by
    intro x hx
    rcases h.sent x hx with e | ⟨id, t, h1, h2⟩
    · exact .inl e
    · exact .inr ⟨id, t, hm _ h1, h2⟩
  have hpk : Known (s.pool.poll chk i).1.outbound (s.grown i built).1 (s.grown i built).2 := fun id hid => hk id (poll_sub chk s.pool i hr id hid)
  have hpl : Pool.LogInv (s.pool.poll chk i).1 := Pool.LogInv.step chk h.log (.poll i)
  have hcl : s.queue.closed = false := by rw [h.closed, hr]; rfl
  dsimp only
  split
  · exact ⟨hpk, hpl, hsent, h.account, by simp [State.closing, hcl]⟩
  · obtain ⟨l1, l2⟩ := loop_account A sha chk (s.pool.results i).outbound (s.grown i built).1 ds s.queue.queue 0
    have hs2 : ∀ x ∈ s.handled ++ (loop A sha chk (s.pool.results i).outbound (s.grown i built).1 ds 0 s.queue.queue).1, x.sent = [] ∨
        ∃ id t, (id, t) ∈ (s.grown i built).2 ∧ (strict x.msg = true → asked x.msg = some id) ∧ SentOver A sha t x.msg x.sent := by
      intro x hx
      rw [List.mem_append] at hx
      rcases hx with hx | hx
      · exact hsent x hx
      · rcases l1 x hx with e | ⟨k, m, e⟩
        · exact .inl e
        · obtain ⟨rfl, ⟨id, t, -, h2, -, -, h5, h6⟩ | ⟨h1, -⟩⟩ := handle_spec A sha hk e
          · exact .inr ⟨id, t, h2, h5, _, h6⟩
          · exact .inl h1
    have hacc : s.accepted = (s.handled ++ (loop A sha chk (s.pool.results i).outbound (s.grown i built).1 ds 0 s.queue.queue).1).map (·.msg) ++
        (loop A sha chk (s.pool.results i).outbound (s.grown i built).1 ds 0 s.queue.queue).2.getD [] := by
      rw [h.account, List.map_append, List.append_assoc, ← l2]
    split
    · have hrl := results_log h.log i
      exact ⟨hk, ⟨hrl.out, hrl.inn, hrl.eo, hrl.ei, hrl.acc⟩, hs2, hacc, by simp [State.closing]⟩
    · exact ⟨hpk, hpl, hs2, hacc, by simp [State.closing, hcl]⟩

theorem inv_step {A : Aes} {sha : Sha} {s : State} (h : Inv A sha s) (chk : Bool) (o : Op) : Inv A sha (s.step A sha chk o) := by
  cases o with
  | poll i built ds => exact inv_poll h chk i built ds
  | read =>
    have hl := Pool.LogInv.step chk h.log .read
    exact ⟨h.known, hl, h.sent, h.account, h.closed⟩
  | send m =>
    refine ⟨h.known, h.log, h.sent, ?_, ?_⟩
    · show (if (s.queue.trySend m).2 = .ok then s.accepted ++ [m] else s.accepted) = s.handled.map (·.msg) ++ (s.queue.trySend m).1.queue
      unfold Chan.trySend
      split
      · rw [if_neg (by simp)]; exact h.account
      · split
        · rw [if_pos rfl, h.account, List.append_assoc]
        · rw [if_neg (by simp)]; exact h.account
    · show (s.queue.trySend m).1.closed = _
      unfold Chan.trySend
      split
      · exact h.closed
      · split <;> exact h.closed

theorem inv_run (A : Aes) (sha : Sha) (chk : Bool) (numIn numOut now : Nat) (ops : List Op) : Inv A sha ((State.init numIn numOut now).run A sha chk ops) :=
  Pool.foldl_inv (P := Inv A sha) (fun _ o hb => inv_step hb chk o) ops _ (inv_init A sha numIn numOut now)

theorem sentOver_router {A : Aes} {sha : Sha} {t : OutTunnel} {m : Msg} {sent : List (Hop.Out × Option Nat)} (h : SentOver A sha t m sent) :
    ∀ x ∈ sent, x.1.router = t.first.router := by
  obtain ⟨d, di, bytes, h1, -, -, -⟩ := h
  intro x hx
  have : x.1 ∈ sent.map (·.1) := List.mem_map_of_mem hx
  rw [h1] at this
  unfold Hop.ownerSends at this
  rw [List.mem_mapIdx] at this
  obtain ⟨k, hk, e⟩ := this
  rw [← e]

/-! ## The theorems -/

/-- **C270**: in every history, whatever a pool sends for those who use it goes to the first hop of an outbound tunnel that this pool has built, encrypted in layers for the hops of
that tunnel, with the instruction for its endpoint that the message names; never directly to the router or tunnel that the message is for. -/
theorem C270_first_hop (A : Aes) (sha : Sha) (chk : Bool) (numIn numOut now : Nat) (ops : List Op) :
    let s := (State.init numIn numOut now).run A sha chk ops
    ∀ h ∈ s.handled, h.sent = [] ∨ ∃ id t, (id, t) ∈ s.made ∧ SentOver A sha t h.msg h.sent ∧ ∀ x ∈ h.sent, x.1.router = t.first.router := by
  intro s h hh
  rcases (inv_run A sha chk numIn numOut now ops).sent h hh with e | ⟨id, t, h1, -, h3⟩
  · exact .inl e
  · exact .inr ⟨id, t, h1, h3, sentOver_router h3⟩

/-- **C270**: a pool takes the messages given to it in the order in which they were given, each one once; the others are waiting. -/
theorem C270_order (A : Aes) (sha : Sha) (chk : Bool) (numIn numOut now : Nat) (ops : List Op) :
    let s := (State.init numIn numOut now).run A sha chk ops
    s.accepted = s.handled.map (·.msg) ++ s.queue.queue :=
  (inv_run A sha chk numIn numOut now ops).account

theorem loop_release (A : Aes) (sha : Sha) (outbound : List Nat) (tunnels : AMap Nat OutTunnel) (ds : Nat → Draw) (l : List Msg) : ∀ k,
    (loop A sha false outbound tunnels ds k l).2 = none ∧
    ∀ h ∈ (loop A sha false outbound tunnels ds k l).1, ∃ k', handle A sha false outbound tunnels (ds k') h.msg = some h := by
  induction l with
  | nil => intro k; exact ⟨rfl, nofun⟩
  | cons m ms ih =>
    intro k
    have hv : ∀ first o, ∃ c, via false outbound first o = some c := by
      intro first o
      cases o with
      | none => exact ⟨_, rfl⟩
      | some g =>
        unfold via
        dsimp only
        split
        · exact ⟨_, rfl⟩
        · exact ⟨_, rfl⟩
    have hc : ∃ c, choose false outbound (ds k).first m = some c := by
      cases m with
      | router g r b f => exact ⟨_, rfl⟩
      | tunnel r i b => exact ⟨_, rfl⟩
      | routerVia o r b => exact hv _ o
      | tunnelVia o r i b => exact hv _ o
      | inbound m => exact ⟨_, rfl⟩
    obtain ⟨c, hc⟩ := hc
    have hh : ∃ h, handle A sha false outbound tunnels (ds k) m = some h ∧ h.msg = m := by
      unfold handle
      rw [hc]
      simp only [Option.bind_eq_bind, Option.bind_some]
      split
      · exact ⟨_, rfl, rfl⟩
      · exact ⟨_, rfl, rfl⟩
    obtain ⟨h, hh, hm⟩ := hh
    obtain ⟨i1, i2⟩ := ih (k + 1)
    unfold loop
    rw [hh]
    refine ⟨i1, fun x hx => ?_⟩
    simp only [List.mem_cons] at hx
    rcases hx with rfl | hx
    · exact ⟨k, by rw [hm]; exact hh⟩
    · exact i2 x hx

/-- **C270**, in part (without debug assertions): a poll takes every message that is waiting, in order, and what is sent for it goes over the tunnel that it names if the pool's events say
that this tunnel is up. A message that names no tunnel, or one that is gone, goes over another one if there is any; only a message bound to its
tunnel, and any message while there is no outbound tunnel, is dropped. -/
theorem C270_sent_partial (A : Aes) (sha : Sha) (numIn numOut now : Nat) (ops : List Op) (i : Pool.Input) (built : Nat → OutTunnel) (ds : Nat → Draw) :
    let s := (State.init numIn numOut now).run A sha false ops
    let s' := s.poll A sha false i built ds
    let up := fun id => Pool.UpOut (Pool.told (s.pool.results i)) id
    s.pool.running = true → i.crashed = false →
    ∃ new, s'.handled = s.handled ++ new ∧ new.map (·.msg) = s.queue.queue ∧ s'.queue.queue = [] ∧
      ∀ h ∈ new, outgoing h.msg = true →
        (∀ g, asked h.msg = some g → up g → ∃ t k, s'.tunnels.get g = some t ∧ SentWith A sha t h.msg (ds k) h.sent) ∧
        (strict h.msg = false → (∃ id, up id) → ∃ id t k, up id ∧ s'.tunnels.get id = some t ∧ SentWith A sha t h.msg (ds k) h.sent) := by
  intro s s' up hr hc
  have inv := inv_run A sha false numIn numOut now ops
  obtain ⟨hk, -⟩ := grown_known inv.known i built
  obtain ⟨r1, r2⟩ := loop_release A sha (s.pool.results i).outbound (s.grown i built).1 ds s.queue.queue 0
  obtain ⟨-, l2⟩ := loop_account A sha false (s.pool.results i).outbound (s.grown i built).1 ds s.queue.queue 0
  have hup : ∀ id, id ∈ (s.pool.results i).outbound ↔ up id := (results_log inv.log i).out
  have e : s'.handled = s.handled ++ (loop A sha false (s.pool.results i).outbound (s.grown i built).1 ds 0 s.queue.queue).1 ∧
      s'.queue.queue = [] ∧ s'.tunnels = (s.grown i built).1 := by
    show (s.poll A sha false i built ds).handled = _ ∧ (s.poll A sha false i built ds).queue.queue = _ ∧ (s.poll A sha false i built ds).tunnels = _
    unfold State.poll
    rw [if_neg (by simp [hr])]
    dsimp only
    rw [if_neg (by simp [hc]), r1]
    exact ⟨rfl, rfl, rfl⟩
  rw [r1, Option.getD_none, List.append_nil] at l2
  refine ⟨_, e.1, l2.symm, e.2.1, fun h hh ho => ?_⟩
  obtain ⟨k, hk'⟩ := r2 h hh
  rw [e.2.2]
  obtain ⟨-, ⟨id, t, h1, h2, h3, h4, h5, h6⟩ | ⟨h1, h2⟩⟩ := handle_spec A sha hk hk'
  · refine ⟨fun g hg hu => ?_, fun _ _ => ⟨id, t, k, (hup id).1 h1, h3, h6⟩⟩
    have := h4 g hg ((hup g).2 hu)
    subst this
    exact ⟨t, k, h3, h6⟩
  · rcases h2 ho with h0 | ⟨hs, hg⟩
    · refine ⟨fun g _ hu => ?_, fun _ ⟨id, hu⟩ => ?_⟩
      · have := (hup g).2 hu
        rw [h0] at this; cases this
      · have := (hup id).2 hu
        rw [h0] at this; cases this
    · refine ⟨fun g hg' hu => absurd ((hup g).2 hu) (hg g hg'), fun hs' => ?_⟩
      rw [hs] at hs'; cases hs'

/-- **C270**, in part (messages of up to 64 pieces, see C12): with C235, a message that was sent over a tunnel is delivered by its endpoint to the router or tunnel that it names. -/
theorem C270_delivered_partial {A : Aes} (hA : A.Lawful) (sha : Sha) (hsha : ShaOk sha) (t : OutTunnel) (m : Msg) (d : Draw) (hd : d.Ok)
    (sent : List (Hop.Out × Option Nat)) (h : SentWith A sha t m d sent) (stops : List Hop.Stop) (hok : ∀ s ∈ stops, s.Ok) (last : Keys)
    (hops : (t.first :: t.rest).map (·.keys) = stops.map (·.next.keys) ++ [last]) (random : Bytes) (hrandom : random.length = 1028)
    (hpad : t.padding = paddingBytes random) (di : DI) (bytes : Bytes) (hm : m.order = some (di, bytes)) (hdi : di.Ok)
    (M : I2np.Message) (hM : I2np.Message.parseStandard bytes = some (M, [])) (hfit : Fits di bytes) (hexp : M.expiration / 1000000000 < 2 ^ 32) :
    (∀ x ∈ sent, x.1.router = t.first.router) ∧ Reaches A sha stops last M di d.rnd.mid (sent.map (·.1)) := by
  refine ⟨sentOver_router ⟨d, h⟩, ?_⟩
  obtain ⟨di', bytes', h1, h2, -, -⟩ := h
  have e : di' = di ∧ bytes' = bytes ∧ di ≠ .loc := by
    cases m <;> simp only [Msg.order, Option.some.injEq, Prod.mk.injEq, reduceCtorEq] at hm <;> obtain ⟨rfl, rfl⟩ := hm <;> exact ⟨h2.1, h2.2, by simp⟩
  obtain ⟨rfl, rfl, hne⟩ := e
  rw [h1, hops, hpad]
  exact (Hop.C235_delivered_partial hA sha hsha false stops hok last t.first.router t.first.id random hrandom di' hdi hne d.now hd.now d.ids hd.ids d.rnd hd.rnd M bytes' hM hfit hexp).2

/-- **C270**, refuted for messages that a pool has accepted: while the pool's events say that no outbound tunnel is up, every message that waits is taken and nothing is sent for it, and
whoever gave it to the pool was told that it was accepted. -/
theorem C270_no_tunnel_violated (A : Aes) (sha : Sha) (numIn numOut now : Nat) (ops : List Op) (m : Msg) (i : Pool.Input) (built : Nat → OutTunnel) (ds : Nat → Draw)
    (hr : ((State.init numIn numOut now).run A sha false ops).pool.running = true)
    (hroom : ((State.init numIn numOut now).run A sha false ops).queue.queue.length < ((State.init numIn numOut now).run A sha false ops).queue.cap)
    (hc : i.crashed = false) (hnone : ∀ id, ¬ Pool.UpOut (Pool.told (((State.init numIn numOut now).run A sha false ops).pool.results i)) id) :
    let s := (State.init numIn numOut now).run A sha false (ops ++ [.send m, .poll i built ds])
    ∃ before, s.accepted = before ++ [m] ∧ s.queue.queue = [] ∧ ∃ h, s.handled.getLast? = some h ∧ h.msg = m ∧ h.sent = [] := by
  intro s
  let s0 := (State.init numIn numOut now).run A sha false ops
  have inv := inv_run A sha false numIn numOut now ops
  have hcl : s0.queue.closed = false := by
    have : s0.queue.closed = !s0.pool.running := inv.closed
    rw [this, hr]; rfl
  have hs : s = (s0.step A sha false (.send m)).poll A sha false i built ds := by
    show List.foldl _ _ (ops ++ _) = _
    rw [List.foldl_append]; rfl
  have hsend : s0.step A sha false (.send m) = { s0 with queue := { s0.queue with queue := s0.queue.queue ++ [m] }, accepted := s0.accepted ++ [m] } := by
    have e : s0.queue.trySend m = ({ s0.queue with queue := s0.queue.queue ++ [m] }, .ok) := by
      unfold Chan.trySend
      rw [if_neg (by rw [hcl]; simp)]
      exact if_pos hroom
    unfold State.step
    dsimp only
    rw [e]
    rfl
  have inv1 : Inv A sha (s0.step A sha false (.send m)) := inv_step inv false (.send m)
  rw [hsend] at hs inv1
  obtain ⟨r1, r2⟩ := loop_release A sha (s0.pool.results i).outbound (s0.grown i built).1 ds (s0.queue.queue ++ [m]) 0
  obtain ⟨-, l2⟩ := loop_account A sha false (s0.pool.results i).outbound (s0.grown i built).1 ds (s0.queue.queue ++ [m]) 0
  rw [r1, Option.getD_none, List.append_nil] at l2
  obtain ⟨hk, -⟩ := grown_known inv.known i built
  have hout : (s0.pool.results i).outbound = [] := by
    rw [List.eq_nil_iff_forall_not_mem]
    intro id hid
    exact hnone id (((results_log inv.log i).out id).1 hid)
  have e : s.handled = s0.handled ++ (loop A sha false (s0.pool.results i).outbound (s0.grown i built).1 ds 0 (s0.queue.queue ++ [m])).1 ∧
      s.queue.queue = [] ∧ s.accepted = s0.accepted ++ [m] := by
    rw [hs]
    unfold State.poll
    rw [if_neg (by show ¬ (!s0.pool.running) = true; rw [show s0.pool.running = true from hr]; simp)]
    dsimp only
    rw [if_neg (by simp [hc])]
    have r1' : (loop A sha false (s0.pool.results i).outbound
        ((State.grown { s0 with queue := { s0.queue with queue := s0.queue.queue ++ [m] }, accepted := s0.accepted ++ [m] } i built).1) ds 0
        (s0.queue.queue ++ [m])).2 = none := r1
    rw [r1']
    exact ⟨rfl, rfl, rfl⟩
  refine ⟨s0.accepted, e.2.2, e.2.1, ?_⟩
  generalize hl : (loop A sha false (s0.pool.results i).outbound (s0.grown i built).1 ds 0 (s0.queue.queue ++ [m])).1 = new at *
  have hne : new ≠ [] := by
    rintro rfl
    simp at l2
  have hlast : (new.getLast hne).msg = m := by
    have := congrArg List.getLast? l2
    rw [List.getLast?_append, List.getLast?_singleton, Option.some_or, List.getLast?_map, List.getLast?_eq_getLast_of_ne_nil hne, Option.map_some, Option.some.injEq] at this
    exact this.symm
  refine ⟨new.getLast hne, by rw [e.1, List.getLast?_append, List.getLast?_eq_getLast_of_ne_nil hne]; rfl, hlast, ?_⟩
  obtain ⟨k, hk'⟩ := r2 _ (List.getLast_mem hne)
  obtain ⟨-, ⟨id, t, h1, -⟩ | ⟨h1, -⟩⟩ := handle_spec A sha hk hk'
  · rw [hout] at h1; cases h1
  · exact h1

/-- **C270**, refuted: a build request that the pool was given for one of its tunnels is dropped when that tunnel has expired meanwhile, whatever other tunnels there are. -/
theorem C270_bound_violated (A : Aes) (sha : Sha) (chk : Bool) (outbound : List Nat) (tunnels : AMap Nat OutTunnel) (d : Draw) (g : Nat) (r b : Bytes) (f : Option Nat)
    (h : g ∉ outbound) : handle A sha chk outbound tunnels d (.router g r b f) = some ⟨.router g r b f, []⟩ := by
  simp [handle, choose, h]

/-- **C270**, refuted with debug assertions: the first waiting message that names a tunnel which has expired meanwhile ends the pool. -/
theorem C270_expired_violated (A : Aes) (sha : Sha) (s : State) (i : Pool.Input) (built : Nat → OutTunnel) (ds : Nat → Draw) (m : Msg) (ms : List Msg) (g : Nat)
    (hr : s.pool.running = true) (hc : i.crashed = false) (hq : s.queue.queue = m :: ms) (hs : strict m = false) (hg : asked m = some g)
    (hgone : g ∉ (s.pool.results i).outbound) :
    (s.poll A sha true i built ds).pool.running = false ∧ (s.poll A sha true i built ds).queue.closed = true := by
  have hh : handle A sha true (s.pool.results i).outbound (s.grown i built).1 (ds 0) m = none := by
    cases m with
    | router _ _ _ _ => cases hs
    | tunnel _ _ _ => cases hg
    | inbound _ => cases hg
    | routerVia o r b => have hg : o = some g := hg; subst hg; simp [handle, choose, via, hgone]
    | tunnelVia o r id b => have hg : o = some g := hg; subst hg; simp [handle, choose, via, hgone]
  unfold State.poll
  rw [if_neg (by simp [hr])]
  dsimp only
  rw [if_neg (by simp [hc]), hq]
  unfold loop
  rw [hh]
  simp [State.closing]

/-! ## A pool with a tunnel, from its start to its end -/

/-- A tunnel of two hops. -/
def sampleTunnel (k : Nat) : OutTunnel := ⟨⟨[1], 70 + k, ⟨[2], [3]⟩⟩, [⟨[4], 80, ⟨[5], [6]⟩⟩], List.replicate 1028 7⟩
/-- The clock, ids and pieces' random values. -/
def sampleDraw : Nat → Draw := fun _ => ⟨0, 1000000000, fun k => k, ⟨9, fun _ => List.replicate 16 1, fun _ => 0⟩⟩
/-- The pool starts a build, which is done one second later. -/
def sampleStart : List Op :=
  [.poll { now := 0, outDraws := [some 5] } sampleTunnel sampleDraw, .poll { now := 1000, outs := [(5, true)] } sampleTunnel sampleDraw]
/-- A cipher that does nothing. -/
def noAes : Aes := ⟨fun _ b => b, fun _ b => b⟩

example :
    let s := (State.init 0 1 0).run noAes (fun _ => []) false (sampleStart ++
      [.send (.tunnelVia (some 5) [40] 41 (List.replicate 100 1)), .send (.router 5 [42] (List.replicate 1500 2) (some 3)), .send (.router 6 [42] [1] (some 4)),
       .poll { now := 2000 } sampleTunnel sampleDraw])
    s.made.map (·.1) = [5] ∧ s.handled.map (fun h => h.sent.map fun x => (x.1.router, x.2)) = [[([1], none)], [([1], some 3), ([1], none)], []] ∧ s.queue.queue.length = 0 := by
  decide +kernel

/-- The tunnel expires; its owner has not heard of it and names it. -/
def sampleExpired : List Op := sampleStart ++ [.poll { now := 601000, fired := [(601000, .destroy 5)] } sampleTunnel sampleDraw, .send (.routerVia (some 5) [42] [1])]

example :
    (((State.init 0 1 0).run noAes (fun _ => []) true (sampleExpired ++ [.poll { now := 602000 } sampleTunnel sampleDraw])).pool.running = false) ∧
    (((State.init 0 1 0).run noAes (fun _ => []) false (sampleExpired ++ [.poll { now := 602000 } sampleTunnel sampleDraw])).handled.map fun h => h.sent.length) = [0] ∧
    ((State.init 0 1 0).run noAes (fun _ => []) false (sampleExpired ++ [.poll { now := 602000 } sampleTunnel sampleDraw])).pool.running = true := by
  decide +kernel

end Emissary.PoolSend
