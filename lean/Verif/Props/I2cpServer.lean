import Verif.Model.I2cpServer
/-!
# Pending I2CP sessions and the I2CP server

* C187: the client is asked for a lease set when its tunnels are there, and the session starts with them.
* C188: the sessions of the server are independent and have ids of their own.
-/
namespace Emissary.I2cpServer

open Emissary.Prim (Str Lease Options)
open Emissary.I2cpMessage (Status)

/-! ## Specification -/

/-- The events of the pool, in order. -/
def events (ops : List Op) : List Event := ops.filterMap fun
  | .event e => some e
  | _ => none

/-- The lease of an inbound tunnel that is up: the last thing that happened to it is that it was built. -/
def upIn (n : Nat) (es : List Event) : Option Lease := es.foldl (fun a e => match e with
  | .inBuilt m l => if m = n then some l else a
  | .inExpired m => if m = n then none else a
  | _ => a) none

/-- Is an outbound tunnel up? -/
def upOut (n : Nat) (es : List Event) : Bool := es.foldl (fun a e => match e with
  | .outBuilt m => if m = n then true else a
  | .outExpired m => if m = n then false else a
  | _ => a) false

/-- The tunnels that are up after some events. -/
structure Tunnels.Up (t : Tunnels) (es : List Event) : Prop where
  ok : AMap.Ok t.inbound
  inb : ∀ n, t.inbound.get n = upIn n es
  nodup : t.outbound.Nodup
  outb : ∀ n, n ∈ t.outbound ↔ upOut n es = true

/-! ## C187 -/

theorem run_append (p : Pend) (a b : List Op) : p.run (a ++ b) = (p.run a).run b := List.foldl_append
theorem run_cons (p : Pend) (o : Op) (ops : List Op) : p.run (o :: ops) = (p.step o).run ops := rfl
theorem run_snoc (p : Pend) (ops : List Op) (o : Op) : p.run (ops ++ [o]) = (p.run ops).step o := by rw [run_append]; rfl
theorem step_ended (p : Pend) (o : Op) (h : p.ended.isSome = true) : p.step o = p := by unfold Pend.step; rw [if_pos h]

theorem upIn_snoc (n : Nat) (es : List Event) (e : Event) : upIn n (es ++ [e]) = match e with
    | .inBuilt m l => if m = n then some l else upIn n es
    | .inExpired m => if m = n then none else upIn n es
    | _ => upIn n es := by
  unfold upIn
  rw [List.foldl_append]
  cases e <;> rfl

theorem upOut_snoc (n : Nat) (es : List Event) (e : Event) : upOut n (es ++ [e]) = match e with
    | .outBuilt m => if m = n then true else upOut n es
    | .outExpired m => if m = n then false else upOut n es
    | _ => upOut n es := by
  unfold upOut
  rw [List.foldl_append]
  cases e <;> rfl

theorem Up.inBuilt {t : Tunnels} {es : List Event} (h : t.Up es) (m : Nat) (l : Lease) : Tunnels.Up { t with inbound := t.inbound.put m l } (es ++ [.inBuilt m l]) := by
  refine ⟨AMap.ok_put h.ok m l, fun n => ?_, h.nodup, fun n => ?_⟩
  · rw [upIn_snoc]
    show AMap.get (AMap.put t.inbound m l) n = _
    rw [AMap.get_put]
    dsimp only
    by_cases hn : n = m
    · rw [if_pos hn, if_pos hn.symm]
    · rw [if_neg hn, if_neg (fun x => hn x.symm), h.inb]
  · rw [upOut_snoc]; exact h.outb n

theorem Up.outBuilt {t : Tunnels} {es : List Event} (h : t.Up es) (m : Nat) :
    Tunnels.Up { t with outbound := if m ∈ t.outbound then t.outbound else m :: t.outbound } (es ++ [.outBuilt m]) := by
  refine ⟨h.ok, fun n => ?_, ?_, fun n => ?_⟩
  · rw [upIn_snoc]; exact h.inb n
  · show (if m ∈ t.outbound then t.outbound else m :: t.outbound).Nodup
    split
    · exact h.nodup
    · rename_i hm; exact List.nodup_cons.mpr ⟨hm, h.nodup⟩
  · rw [upOut_snoc]
    show n ∈ (if m ∈ t.outbound then t.outbound else m :: t.outbound) ↔ _
    dsimp only
    by_cases hn : m = n
    · subst hn
      rw [if_pos rfl]
      split
      · rename_i hm; simp [hm]
      · simp
    · rw [if_neg hn]
      split
      · exact h.outb n
      · rw [List.mem_cons, ← h.outb n]
        constructor
        · rintro (h | h)
          · exact absurd h.symm hn
          · exact h
        · exact .inr

theorem Up.inExpired {t : Tunnels} {es : List Event} (h : t.Up es) (m : Nat) : Tunnels.Up { t with inbound := t.inbound.del m } (es ++ [.inExpired m]) := by
  refine ⟨AMap.ok_del h.ok m, fun n => ?_, h.nodup, fun n => ?_⟩
  · rw [upIn_snoc]
    show AMap.get (AMap.del t.inbound m) n = _
    rw [AMap.get_del]
    dsimp only
    by_cases hn : n = m
    · rw [if_pos hn, if_pos hn.symm]
    · rw [if_neg hn, if_neg (fun x => hn x.symm), h.inb]
  · rw [upOut_snoc]; exact h.outb n

theorem Up.outExpired {t : Tunnels} {es : List Event} (h : t.Up es) (m : Nat) : Tunnels.Up { t with outbound := t.outbound.filter (· ≠ m) } (es ++ [.outExpired m]) := by
  refine ⟨h.ok, fun n => ?_, h.nodup.filter _, fun n => ?_⟩
  · rw [upIn_snoc]; exact h.inb n
  · rw [upOut_snoc]
    show n ∈ t.outbound.filter (· ≠ m) ↔ _
    rw [List.mem_filter, h.outb n]
    dsimp only
    by_cases hn : m = n
    · rw [if_pos hn]; simp [hn]
    · rw [if_neg hn]
      exact ⟨fun h => h.1, fun h => ⟨h, by simpa using fun x : n = m => hn x.symm⟩⟩

theorem Up.other {t : Tunnels} {es : List Event} (h : t.Up es) : t.Up (es ++ [.other]) :=
  ⟨h.ok, fun n => by rw [upIn_snoc]; exact h.inb n, h.nodup, fun n => by rw [upOut_snoc]; exact h.outb n⟩

/-- The history of a session whose tunnels are being built. -/
def Told (ops : List Op) (o : Options) (es : List Event) : Prop :=
  ∃ a dest b c, ops = a ++ .create dest o true :: b ++ .poolBuilt :: c ∧ events c = es

/-- The history of a session that has asked for a lease set for these tunnels. -/
def Asked (ops : List Op) (o : Options) (t : Tunnels) : Prop :=
  ∃ before e after es, ops = before ++ .event e :: after ∧ Told before o es ∧ t.Up (es ++ [e]) ∧ t.inbound.length = (Config.of o).numIn ∧ t.outbound.length = (Config.of o).numOut

def requests (out : List Out) : List (Nat × List Lease) := out.filterMap fun
  | .request sid ls => some (sid, ls)
  | _ => none

def created (out : List Out) : Nat := out.countP fun
  | .status _ .created => true
  | _ => false

theorem requests_append (a b : List Out) : requests (a ++ b) = requests a ++ requests b := List.filterMap_append
theorem created_append (a b : List Out) : created (a ++ b) = created a + created b := List.countP_append
theorem events_append (a b : List Op) : events (a ++ b) = events a ++ events b := List.filterMap_append

/-- What is known about a session by where it is. -/
structure Inv (i : Nat) (ops : List Op) (p : Pend) : Prop where
  sid : p.sid = i
  stage : match p.stage with
    | .inactive => requests p.out = [] ∧ created p.out = 0
    | .pool o => requests p.out = [] ∧ created p.out = 1 ∧ ∃ a dest b, ops = a ++ .create dest o true :: b
    | .tunnels o t => requests p.out = [] ∧ created p.out = 1 ∧ (p.ended.isSome = false → ∃ es, Told ops o es ∧ t.Up es)
    | .awaiting o t => requests p.out = [(i, t.leases)] ∧ created p.out = 1 ∧ Asked ops o t
  ready : ∀ c, p.ended = some (.ready c) → c.sid = i ∧ p.stage = .awaiting c.options c.tunnels ∧ ∃ a b, ops = a ++ .leaseSet c.key c.leaseSet c.keys :: b

theorem Told.snoc {ops : List Op} {o : Options} {es : List Event} (h : Told ops o es) (x : Op) : Told (ops ++ [x]) o (es ++ events [x]) := by
  obtain ⟨a, dest, b, c, h1, h2⟩ := h
  refine ⟨a, dest, b, c ++ [x], ?_, by rw [events_append, h2]⟩
  rw [h1]
  simp

theorem Asked.snoc {ops : List Op} {o : Options} {t : Tunnels} (h : Asked ops o t) (x : Op) : Asked (ops ++ [x]) o t := by
  obtain ⟨a, e, b, es, h1, h2⟩ := h
  refine ⟨a, e, b ++ [x], es, ?_, h2⟩
  rw [h1]
  simp

theorem log_requests (p : Pend) (o : Out) (h : ∀ a b, o ≠ .request a b) : requests (p.log o).out = requests p.out := by
  show requests (p.out ++ [o]) = _
  rw [requests_append]
  cases o with
  | request a b => exact absurd rfl (h a b)
  | _ => exact List.append_nil _

theorem log_created (p : Pend) (o : Out) (h : ∀ a, o ≠ .status a .created) : created (p.log o).out = created p.out := by
  show created (p.out ++ [o]) = _
  rw [created_append]
  cases o with
  | status a k =>
    cases k with
    | created => exact absurd rfl (h a)
    | _ => exact Nat.add_zero _
  | _ => exact Nat.add_zero _

/-- A step that changes neither the stage nor what counts. -/
theorem Inv.keep {i : Nat} {ops : List Op} {p q : Pend} (h : Inv i ops p) (x : Op) (h0 : (∃ o t, p.stage = .tunnels o t) → q.ended.isSome = true ∨ events [x] = [] ∧ p.ended.isSome = false)
    (h1 : q.sid = p.sid) (h2 : q.stage = p.stage) (h3 : requests q.out = requests p.out)
    (h4 : created q.out = created p.out) (h5 : ∀ c, q.ended = some (.ready c) → p.ended = some (.ready c)) : Inv i (ops ++ [x]) q := by
  refine ⟨h1.trans h.sid, ?_, ?_⟩
  · have hs := h.stage
    rw [h2, h3, h4]
    cases hst : p.stage with
    | inactive => rw [hst] at hs; exact hs
    | pool o =>
      rw [hst] at hs
      obtain ⟨r1, r2, a, dest, b, hab⟩ := hs
      exact ⟨r1, r2, a, dest, b ++ [x], by rw [hab]; simp⟩
    | tunnels o t =>
      rw [hst] at hs
      obtain ⟨r1, r2, hs⟩ := hs
      refine ⟨r1, r2, fun hq => ?_⟩
      rcases h0 ⟨o, t, hst⟩ with h0 | ⟨h0, hp⟩
      · rw [hq] at h0; cases h0
      · obtain ⟨es, ht, hu⟩ := hs hp
        have := ht.snoc x
        rw [h0, List.append_nil] at this
        exact ⟨es, this, hu⟩
    | awaiting o t =>
      rw [hst] at hs
      obtain ⟨r1, r2, ha⟩ := hs
      exact ⟨r1, r2, ha.snoc x⟩
  · intro c hc
    obtain ⟨r1, r2, a, b, hab⟩ := h.ready c (h5 c hc)
    exact ⟨r1, h2.trans r2, a, b ++ [x], by rw [hab]; simp⟩

theorem Inv.built {i : Nat} {ops : List Op} {p : Pend} {o : Options} {t : Tunnels} {es : List Event} (hi : p.sid = i) (hr : requests p.out = []) (hc : created p.out = 1) (he : p.ended = none)
    (e : Event) {t0 : Tunnels} (hst : p.stage = .tunnels o t0) (ht : Told ops o es) (hu : t.Up (es ++ [e])) : Inv i (ops ++ [.event e]) (p.built o t) := by
  unfold Pend.built
  split
  · refine ⟨hi, ⟨hr, hc, fun _ => ⟨_, ht.snoc (.event e), hu⟩⟩, fun c h => ?_⟩
    have h : p.ended = _ := h
    rw [he] at h; cases h
  · rename_i hn
    have h1 : t.inbound.length = (Config.of o).numIn := Classical.byContradiction fun h => hn (.inl h)
    have h2 : t.outbound.length = (Config.of o).numOut := Classical.byContradiction fun h => hn (.inr h)
    split
    · refine ⟨hi, ?_, fun c h => by cases h⟩
      show (match p.stage with | .inactive => _ | .pool o => _ | .tunnels o t => _ | .awaiting o t => _)
      rw [hst]
      exact ⟨hr, hc, fun h => by cases h⟩
    · refine ⟨hi, ⟨?_, ?_, ops, e, [], es, rfl, ht, hu, h1, h2⟩, fun c h => ?_⟩
      · show requests (p.out ++ [.request p.sid t.leases]) = _
        rw [requests_append, hr, hi]
        rfl
      · show created (p.out ++ [.request p.sid t.leases]) = _
        rw [created_append, hc]
        rfl
      · have h : p.ended = _ := h
        rw [he] at h; cases h
theorem Inv.step {i : Nat} {ops : List Op} {p : Pend} (h : Inv i ops p) (x : Op) : Inv i (ops ++ [x]) (p.step x) := by
  by_cases he : p.ended.isSome = true
  · rw [step_ended p x he]
    exact h.keep x (fun _ => .inl he) rfl rfl rfl rfl (fun _ => id)
  · have he' : p.ended.isSome = false := by simpa using he
    have hen : p.ended = none := by simpa using he
    unfold Pend.step
    rw [if_neg he]
    cases x with
    | getDate now => exact h.keep _ (fun _ => .inr ⟨rfl, he'⟩) rfl rfl (log_requests _ _ (by intro a b h; cases h)) (log_created _ _ (by intro a h; cases h)) (fun _ => id)
    | getLimits => exact h.keep _ (fun _ => .inr ⟨rfl, he'⟩) rfl rfl (log_requests _ _ (by intro a b h; cases h)) (log_created _ _ (by intro a h; cases h)) (fun _ => id)
    | destroy sid => exact h.keep _ (fun _ => .inr ⟨rfl, he'⟩) rfl rfl (log_requests _ _ (by intro a b h; cases h)) (log_created _ _ (by intro a h; cases h)) (fun _ => id)
    | lookup a b => exact h.keep _ (fun _ => .inr ⟨rfl, he'⟩) rfl rfl rfl rfl (fun _ => id)
    | other => exact h.keep _ (fun _ => .inr ⟨rfl, he'⟩) rfl rfl rfl rfl (fun _ => id)
    | closed => exact h.keep _ (fun _ => .inl rfl) rfl rfl rfl rfl (fun c h => by cases h)
    | poolGone =>
      dsimp only
      split
      · rename_i hst
        exact h.keep _ (fun _ => .inl rfl) rfl rfl rfl rfl (fun c h => by cases h)
      · exact h.keep _ (fun _ => .inr ⟨rfl, he'⟩) rfl rfl rfl rfl (fun _ => id)
    | create dest o acc =>
      dsimp only
      unfold Pend.create
      split
      · rename_i hst
        split
        · rename_i hacc
          have hs := h.stage
          rw [hst] at hs
          refine ⟨h.sid, ⟨?_, ?_, ops, dest, [], ?_⟩, fun c hc => ?_⟩
          · rw [log_requests _ _ (by intro a b h; cases h)]
            exact hs.1
          · show created (p.out ++ [.status p.sid .created]) = 1
            rw [created_append, hs.2]
            rfl
          · rw [hacc]
          · have hc : p.ended = _ := hc
            rw [hen] at hc; cases hc
        · exact h.keep _ (fun _ => .inr ⟨rfl, he'⟩) rfl rfl rfl rfl (fun _ => id)
      · exact h.keep _ (fun _ => .inr ⟨rfl, he'⟩) rfl rfl rfl rfl (fun _ => id)
    | leaseSet key ls keys =>
      dsimp only
      unfold Pend.leaseSet
      split
      · rename_i o t hst
        have hs := h.stage
        rw [hst] at hs
        obtain ⟨r1, r2, ha⟩ := hs
        refine ⟨h.sid, ?_, fun c hc => ?_⟩
        · show (match p.stage with | .inactive => _ | .pool o => _ | .tunnels o t => _ | .awaiting o t => _)
          rw [hst]
          exact ⟨r1, r2, ha.snoc _⟩
        · cases hc
          exact ⟨h.sid, hst, ops, [], rfl⟩
      · split
        · exact h.keep _ (fun _ => .inl rfl) rfl rfl rfl rfl (fun c h => by cases h)
        · exact h.keep _ (fun _ => .inr ⟨rfl, he'⟩) rfl rfl rfl rfl (fun _ => id)
    | poolBuilt =>
      dsimp only
      split
      · rename_i o hst
        have hs := h.stage
        rw [hst] at hs
        obtain ⟨r1, r2, a, dest, b, hab⟩ := hs
        refine ⟨h.sid, ⟨r1, r2, fun _ => ⟨[], ⟨a, dest, b, [], ?_, rfl⟩, ⟨AMap.ok_nil, fun n => rfl, List.nodup_nil, fun n => ?_⟩⟩⟩, fun c hc => ?_⟩
        · rw [hab]
        · show n ∈ [] ↔ false = true
          simp
        · have hc : p.ended = _ := hc
          rw [hen] at hc; cases hc
      · exact h.keep _ (fun _ => .inr ⟨rfl, he'⟩) rfl rfl rfl rfl (fun _ => id)
    | event e =>
      dsimp only
      unfold Pend.event
      split
      · rename_i o t hst
        have hs := h.stage
        rw [hst] at hs
        obtain ⟨r1, r2, hs⟩ := hs
        obtain ⟨es, ht, hu⟩ := hs he'
        have later : ∀ t', t'.Up (es ++ [e]) → Inv i (ops ++ [.event e]) { p with stage := .tunnels o t' } := by
          intro t' hu'
          refine ⟨h.sid, ⟨r1, r2, fun _ => ⟨_, ht.snoc (.event e), hu'⟩⟩, fun c hc => ?_⟩
          have hc : p.ended = _ := hc
          rw [hen] at hc; cases hc
        cases e with
        | inBuilt n l => exact Inv.built h.sid r1 r2 hen _ hst ht (Up.inBuilt hu n l)
        | outBuilt n => exact Inv.built h.sid r1 r2 hen _ hst ht (Up.outBuilt hu n)
        | inExpired n => exact later _ (Up.inExpired hu n)
        | outExpired n => exact later _ (Up.outExpired hu n)
        | other =>
          have := later t (Up.other hu)
          rw [← hst] at this
          exact this
      · rename_i hst
        refine h.keep _ (fun ⟨o, t, h⟩ => absurd h (hst o t)) rfl rfl rfl rfl (fun _ => id)

theorem new_inv (i : Nat) (chk : Bool) : Inv i [] { sid := i, chk } := ⟨rfl, ⟨rfl, rfl⟩, fun c h => by cases h⟩

theorem run_inv (i : Nat) (chk : Bool) (ops : List Op) : Inv i ops (Pend.run { sid := i, chk } ops) := by
  have key : ∀ (more ops : List Op) (p : Pend), Inv i ops p → Inv i (ops ++ more) (p.run more) := by
    intro more
    induction more with
    | nil => intro ops p h; rw [List.append_nil]; exact h
    | cons o more ih =>
      intro ops p h
      have := ih _ _ (h.step o)
      rw [List.append_assoc] at this
      exact this
  exact key ops [] _ (new_inv i chk)

/-- The client is asked for a lease set only when it has created the session, the pool is there, and exactly the tunnels that the options say are up. It is asked for leases of exactly the
inbound tunnels that are up. -/
theorem C187_request (i : Nat) (chk : Bool) (ops : List Op) (sid : Nat) (leases : List Lease) (h : .request sid leases ∈ (Pend.run { sid := i, chk } ops).out) :
    sid = i ∧ ∃ o t, Asked ops o t ∧ leases = t.leases := by
  have hi := run_inv i chk ops
  have hm : (sid, leases) ∈ requests (Pend.run { sid := i, chk } ops).out := List.mem_filterMap.mpr ⟨_, h, rfl⟩
  generalize Pend.run { sid := i, chk } ops = p at hi hm
  have hs := hi.stage
  cases hst : p.stage with
  | inactive => rw [hst] at hs; rw [hs.1] at hm; cases hm
  | pool o => rw [hst] at hs; rw [hs.1] at hm; cases hm
  | tunnels o t => rw [hst] at hs; rw [hs.1] at hm; cases hm
  | awaiting o t =>
    rw [hst] at hs
    rw [hs.1] at hm
    cases List.mem_singleton.mp hm
    exact ⟨rfl, o, t, hs.2.2, rfl⟩

/-- The client is told once that the session is created, and asked once for a lease set. -/
theorem C187_once (i : Nat) (chk : Bool) (ops : List Op) :
    (requests (Pend.run { sid := i, chk } ops).out).length ≤ 1 ∧ created (Pend.run { sid := i, chk } ops).out ≤ 1 ∧
    (requests (Pend.run { sid := i, chk } ops).out ≠ [] → created (Pend.run { sid := i, chk } ops).out = 1) := by
  have hi := run_inv i chk ops
  generalize Pend.run { sid := i, chk } ops = p at hi
  have hs := hi.stage
  cases hst : p.stage with
  | inactive => rw [hst] at hs; rw [hs.1, hs.2]; exact ⟨by decide, by decide, fun h => absurd rfl h⟩
  | pool o => rw [hst] at hs; rw [hs.1, hs.2.1]; exact ⟨by decide, by decide, fun _ => rfl⟩
  | tunnels o t => rw [hst] at hs; rw [hs.1, hs.2.1]; exact ⟨by decide, by decide, fun _ => rfl⟩
  | awaiting o t => rw [hst] at hs; rw [hs.1, hs.2.1]; exact ⟨Nat.le_refl _, by decide, fun _ => rfl⟩

/-- A session starts with a lease set that the client sent after it was asked, and with the tunnels that it was asked for. -/
theorem C187_started (i : Nat) (chk : Bool) (ops : List Op) (c : Context) (h : (Pend.run { sid := i, chk } ops).ended = some (.ready c)) :
    c.sid = i ∧ (∃ a b, ops = a ++ .leaseSet c.key c.leaseSet c.keys :: b) ∧ .request i c.tunnels.leases ∈ (Pend.run { sid := i, chk } ops).out ∧ Asked ops c.options c.tunnels := by
  have hi := run_inv i chk ops
  generalize Pend.run { sid := i, chk } ops = p at hi h
  obtain ⟨h1, hst, h2⟩ := hi.ready c h
  have hs := hi.stage
  rw [hst] at hs
  refine ⟨h1, h2, ?_, hs.2.2⟩
  have hm : (i, c.tunnels.leases) ∈ requests p.out := by rw [hs.1]; exact List.mem_singleton.mpr rfl
  obtain ⟨o, ho, he⟩ := List.mem_filterMap.mp hm
  cases o with
  | request a b => cases he; exact ho
  | _ => cases he

/-- A state that a session can come to while its tunnels are built. -/
def Building (i : Nat) (chk : Bool) (ops : List Op) (o : Options) (t : Tunnels) : Prop :=
  (Pend.run { sid := i, chk } ops).stage = .tunnels o t ∧ (Pend.run { sid := i, chk } ops).ended = none

/-- When the last of the tunnels is built the client is asked at once. -/
theorem C187_soon_partial (i : Nat) (chk : Bool) (ops : List Op) (o : Options) (t : Tunnels) (h : Building i chk ops o t) (n : Nat) (l : Lease)
    (h1 : (t.inbound.put n l).length = (Config.of o).numIn) (h2 : t.outbound.length = (Config.of o).numOut) :
    (Pend.run { sid := i, chk } (ops ++ [.event (.inBuilt n l)])).out = (Pend.run { sid := i, chk } ops).out ++ [.request i (Tunnels.leases { t with inbound := t.inbound.put n l })] := by
  have hi := (run_inv i chk ops).sid
  obtain ⟨hst, he⟩ := h
  rw [run_snoc]
  generalize Pend.run { sid := i, chk } ops = p at hi hst he
  unfold Pend.step
  rw [if_neg (by rw [he]; simp)]
  dsimp only
  unfold Pend.event
  rw [hst]
  dsimp only
  unfold Pend.built
  rw [if_neg (by rintro (h | h); exact h h1; exact h h2)]
  have hne : Tunnels.leases { t with inbound := t.inbound.put n l } ≠ [] := by
    intro h
    have : (Tunnels.leases { t with inbound := t.inbound.put n l }).length = (t.inbound.put n l).length := List.length_map ..
    rw [h] at this
    unfold AMap.put at this
    simp at this
  unfold I2cpMessage.mkLeaseRequest
  rw [if_neg hne, hi]
  rfl

/-- If more inbound tunnels are up than the options say, because the next one was built before the last one expired, then the client is not asked for a lease set, however many outbound
tunnels are built. -/
theorem C187_more_violated (i : Nat) (chk : Bool) (ops : List Op) (o : Options) (t : Tunnels) (h : Building i chk ops o t) (h1 : (Config.of o).numIn < t.inbound.length) (ns : List Nat) :
    (Pend.run { sid := i, chk } (ops ++ ns.map fun n => .event (.outBuilt n))).out = (Pend.run { sid := i, chk } ops).out := by
  rw [run_append]
  obtain ⟨hst, he⟩ := h
  generalize Pend.run { sid := i, chk } ops = p at hst he
  induction ns generalizing p t with
  | nil => rfl
  | cons n ns ih =>
    have hs : p.step (.event (.outBuilt n)) = { p with stage := .tunnels o { t with outbound := if n ∈ t.outbound then t.outbound else n :: t.outbound } } := by
      unfold Pend.step
      rw [if_neg (by rw [he]; simp)]
      dsimp only
      unfold Pend.event
      rw [hst]
      dsimp only
      unfold Pend.built
      rw [if_pos (.inl (by show t.inbound.length ≠ _; omega))]
    rw [List.map_cons, run_cons, hs]
    exact ih { t with outbound := if n ∈ t.outbound then t.outbound else n :: t.outbound } h1 _ rfl he

/-- A client that asks for no inbound tunnels makes the task of its session panic when the last outbound tunnel is built. -/
theorem C187_none_violated (i : Nat) (chk : Bool) (ops : List Op) (o : Options) (t : Tunnels) (h : Building i chk ops o t) (h0 : (Config.of o).numIn = 0) (ht : t.inbound = []) (n : Nat)
    (hn : n ∉ t.outbound) (h2 : t.outbound.length + 1 = (Config.of o).numOut) : (Pend.run { sid := i, chk } (ops ++ [.event (.outBuilt n)])).ended = some .panic := by
  obtain ⟨hst, he⟩ := h
  rw [run_snoc]
  generalize Pend.run { sid := i, chk } ops = p at hst he
  unfold Pend.step
  rw [if_neg (by rw [he]; simp)]
  dsimp only
  unfold Pend.event
  rw [hst]
  dsimp only
  unfold Pend.built
  rw [if_neg (by rw [if_neg hn, ht]; rintro (h | h); exact h h0.symm; exact h h2)]
  have : Tunnels.leases { t with outbound := if n ∈ t.outbound then t.outbound else n :: t.outbound } = [] := by
    unfold Tunnels.leases
    dsimp only
    rw [ht]
    rfl
  unfold I2cpMessage.mkLeaseRequest
  rw [if_pos this]

/-- A lookup before the session has started is never answered. -/
theorem C187_lookup_violated (p : Pend) (sid req : Nat) : p.step (.lookup sid req) = p := by
  unfold Pend.step
  split <;> rfl

/-- The session of a client that destroys it, or that wants another one, goes on. -/
theorem C187_destroy_violated (p : Pend) (sid : Nat) (dest : Bytes) (o : Options) (acc : Bool) (he : p.ended = none) (hs : p.stage ≠ .inactive) :
    p.step (.destroy sid) = { p with out := p.out ++ [.status sid .destroyed] } ∧ p.step (.create dest o acc) = p := by
  constructor
  · unfold Pend.step
    rw [if_neg (by rw [he]; simp)]
    rfl
  · unfold Pend.step
    rw [if_neg (by rw [he]; simp)]
    dsimp only
    unfold Pend.create
    cases hst : p.stage with
    | inactive => exact absurd hst hs
    | _ => rfl

/-- The lease set may be that of any destination: the session is started for it and not for the one that the client created the session with. -/
theorem C187_other_violated (p : Pend) (o : Options) (t : Tunnels) (he : p.ended = none) (hs : p.stage = .awaiting o t) (key ls : Bytes) (keys : List Bytes) :
    (p.step (.leaseSet key ls keys)).ended = some (.ready { sid := p.sid, key, leaseSet := ls, keys, options := o, tunnels := t }) := by
  unfold Pend.step
  rw [if_neg (by rw [he]; simp)]
  dsimp only
  unfold Pend.leaseSet
  rw [hs]

/-! ## C188 -/

variable {D : Type} [DecidableEq D]

theorem srun_append (s : Server D) (a b : List (Ev D)) : s.run (a ++ b) = (s.run a).run b := List.foldl_append
theorem srun_cons (s : Server D) (e : Ev D) (es : List (Ev D)) : s.run (e :: es) = (s.step e).run es := rfl

/-- Connections with the right protocol byte. -/
def opened (es : List (Ev D)) : Nat := es.countP fun
  | .connected b => b = some 0x2a
  | _ => false

theorem pending_core (s : Server D) (k : Nat) (p : Pend) : (s.pending k p).nextId = s.nextId ∧ (s.pending k p).chk = s.chk ∧ ((s.pending k p).running = true → s.running = true) := by
  unfold Server.pending
  split
  · exact ⟨rfl, rfl, id⟩
  · exact ⟨rfl, rfl, id⟩
  · exact ⟨rfl, rfl, fun h => by cases h⟩
  · split
    · exact ⟨rfl, rfl, fun h => by cases h⟩
    · exact ⟨rfl, rfl, id⟩

theorem step_nextId (s : Server D) (e : Ev D) (hr : (s.step e).running = true) : s.running = true ∧ ∀ n, s.nextId = n % 2 ^ 16 → (s.step e).nextId = (n + opened [e]) % 2 ^ 16 := by
  unfold Server.step at hr ⊢
  cases e with
  | connected b =>
    dsimp only at hr ⊢
    split at hr
    · rename_i h
      rw [if_pos h]
      refine ⟨h.1, fun n hn => ?_⟩
      show (s.nextId + 1) % 2 ^ 16 = _
      have : opened [(Ev.connected b : Ev D)] = 1 := by simp [opened, h.2]
      rw [this, hn]
      omega
    · rename_i h
      rw [if_neg h]
      refine ⟨hr, fun n hn => ?_⟩
      have : opened [(Ev.connected b : Ev D)] = 0 := by
        simp only [opened, List.countP_cons, List.countP_nil]
        rw [if_neg (by simpa using fun hb => h ⟨hr, hb⟩)]
      rw [this, hn]
      rfl
  | pending k o =>
    dsimp only at hr ⊢
    split at hr
    · rename_i p hp
      obtain ⟨h1, _, h2⟩ := pending_core s k (p.step o)
      exact ⟨h2 hr, fun n hn => by rw [h1]; exact hn⟩
    · exact ⟨hr, fun n hn => hn⟩
  | active k o => exact ⟨hr, fun n hn => hn⟩

theorem run_nextId (es : List (Ev D)) : ∀ (s : Server D) (n : Nat), s.nextId = n % 2 ^ 16 → (s.run es).running = true → (s.run es).nextId = (n + opened es) % 2 ^ 16 := by
  have alive : ∀ (es : List (Ev D)) (s : Server D), (s.run es).running = true → s.running = true := by
    intro es
    induction es with
    | nil => intro s h; exact h
    | cons e es ih => intro s h; exact (step_nextId s e (ih _ h)).1
  induction es with
  | nil => intro s n h _; exact h
  | cons e es ih =>
    intro s n h hr
    have hs := step_nextId s e (alive es _ hr)
    have := ih (s.step e) _ (hs.2 n h) hr
    rw [srun_cons, this]
    have : opened (e :: es) = opened [e] + opened es := by
      unfold opened
      rw [← List.countP_append]
      rfl
    rw [this, Nat.add_assoc]

/-- A connection becomes a session exactly if its first byte is the protocol byte, and the ids of sessions count up from 1. -/
theorem C188_ids_partial (chk book : Bool) (es : List (Ev D)) (b : Option UInt8) (hr : (Server.run { chk, book } es).running = true) :
    (Server.run { chk, book } (es ++ [.connected b])).pend = (Server.run { chk, book } es).pend ++ (if b = some 0x2a then [{ sid := (1 + opened es) % 2 ^ 16, chk }] else []) := by
  have hchk : ∀ (es : List (Ev D)) (s : Server D), (s.run es).chk = s.chk := by
    intro es
    induction es with
    | nil => intro s; rfl
    | cons e es ih =>
      intro s
      rw [srun_cons, ih]
      unfold Server.step
      cases e with
      | connected b => dsimp only; split <;> rfl
      | pending k o =>
        dsimp only
        split
        · exact (pending_core s k _).2.1
        · rfl
      | active k o => rfl
  have hid := run_nextId es { chk, book } 1 rfl hr
  have hc := hchk es { chk, book }
  rw [srun_append]
  generalize Server.run { chk, book } es = s at hr hid hc
  show (s.step (.connected b)).pend = _
  unfold Server.step
  dsimp only
  by_cases hb : b = some 0x2a
  · rw [if_pos ⟨hr, hb⟩, if_pos hb, ← hid, hc]
  · rw [if_neg (fun h => hb h.2), if_neg hb, List.append_nil]

theorem open_many (n : Nat) (s : Server D) (hr : s.running = true) : (s.run (List.replicate n (.connected (some 0x2a)))).running = true ∧ s.pend <+: (s.run (List.replicate n (.connected (some 0x2a)))).pend := by
  induction n generalizing s with
  | zero => exact ⟨hr, List.prefix_refl _⟩
  | succ n ih =>
    have h1 : (s.step (.connected (some 0x2a))).running = true ∧ s.pend <+: (s.step (.connected (some 0x2a))).pend := by
      unfold Server.step
      dsimp only
      rw [if_pos ⟨hr, rfl⟩]
      exact ⟨hr, List.prefix_append _ _⟩
    obtain ⟨h2, h3⟩ := ih _ h1.1
    exact ⟨h2, h1.2.trans h3⟩

theorem opened_many (n : Nat) : opened (List.replicate n (.connected (some 0x2a)) : List (Ev D)) = n := by
  induction n with
  | zero => rfl
  | succ n ih =>
    rw [List.replicate_succ]
    unfold opened at ih ⊢
    rw [List.countP_cons, ih]
    rfl

/-- After 65536 connections (or a multiple of that) the id of a session is given to another one although it is still in use. -/
theorem C188_repeat_violated (chk book : Bool) (es : List (Ev D)) (hr : (Server.run { chk, book } es).running = true) (n : Nat) (hn : (n + 1) % 65536 = 0) : ∃ p rest,
    (Server.run { chk, book } (es ++ [.connected (some 0x2a)] ++ List.replicate n (.connected (some 0x2a)) ++ [.connected (some 0x2a)])).pend =
      (Server.run { chk, book } es).pend ++ p :: rest ++ [p] := by
  have h1 := C188_ids_partial chk book es (some 0x2a) hr
  have h2 : (Server.run { chk, book } (es ++ [.connected (some 0x2a)])).running = true := by
    rw [srun_append]
    exact (open_many 1 _ hr).1
  obtain ⟨h3, rest, h4⟩ := open_many n _ h2
  rw [← srun_append] at h3 h4
  have h5 := C188_ids_partial chk book _ (some 0x2a) h3
  rw [h5, ← h4, h1, if_pos rfl, if_pos rfl]
  refine ⟨{ sid := (1 + opened es) % 2 ^ 16, chk }, rest, ?_⟩
  have : opened (es ++ [.connected (some 0x2a)] ++ List.replicate n (.connected (some 0x2a)) : List (Ev D)) = opened es + (n + 1) := by
    have h := opened_many (D := D) n
    unfold opened at h ⊢
    rw [List.countP_append, List.countP_append, h, Nat.add_assoc, Nat.add_comm n 1]
    rfl
  rw [this, show (1 + (opened es + (n + 1))) % 2 ^ 16 = (1 + opened es) % 2 ^ 16 by omega]
  simp

/-- One of the first 65535 sessions has the id 65535, which in I2CP means that there is no session. -/
theorem C188_none_violated (chk book : Bool) (es : List (Ev D)) (hr : (Server.run { chk, book } es).running = true) (h : opened es = 65534) :
    (Server.run { chk, book } (es ++ [.connected (some 0x2a)])).pend = (Server.run { chk, book } es).pend ++ [{ sid := 0xffff, chk }] := by
  rw [C188_ids_partial chk book es (some 0x2a) hr, h]
  rfl

/-- What happens in one pending session changes nothing else, unless it ends the server. -/
theorem C188_isolated_partial (s : Server D) (k : Nat) (p : Pend) (o : Op) (hk : s.pend[k]? = some p) (h1 : (p.step o).ended ≠ some .panic)
    (h2 : ∀ c, (p.step o).ended = some (.ready c) → c.keys ≠ []) :
    (s.step (.pending k o)).running = s.running ∧ s.sessions <+: (s.step (.pending k o)).sessions ∧
    ((s.step (.pending k o)).pend = s.pend.set k (p.step o) ∨ (s.step (.pending k o)).pend = s.pend.eraseIdx k) := by
  unfold Server.step
  dsimp only
  rw [hk]
  dsimp only
  unfold Server.pending
  split
  · exact ⟨rfl, List.prefix_refl _, .inl rfl⟩
  · exact ⟨rfl, List.prefix_refl _, .inr rfl⟩
  · rename_i h; exact absurd h h1
  · rename_i c h
    split
    · rename_i hn
      unfold I2cpSession.State.new at hn
      split at hn
      · rename_i hkeys; exact absurd hkeys (h2 c h)
      · cases hn
    · exact ⟨rfl, List.prefix_append _ _, .inr rfl⟩

/-- What happens in a session changes no other one. -/
theorem C188_active (s : Server D) (k : Nat) (o : I2cpSession.Op D) : (s.step (.active k o)).pend = s.pend ∧ (s.step (.active k o)).running = s.running ∧
    ∀ j, j ≠ k → (s.step (.active k o)).sessions[j]? = s.sessions[j]? := by
  refine ⟨rfl, rfl, fun j hj => ?_⟩
  show (s.sessions.modify k _)[j]? = _
  rw [List.getElem?_modify]
  have : ¬k = j := fun x => hj x.symm
  simp only [if_neg this]
  cases s.sessions[j]? <;> rfl

/-- With debug assertions a client that sends a lease set before it was asked for one ends the server and all pending sessions, of other clients too. -/
theorem C188_early_violated (s : Server D) (hr : s.running = true) (hc : s.chk = true) (key ls : Bytes) (keys : List Bytes) :
    (s.run [.connected (some 0x2a), .pending s.pend.length (.leaseSet key ls keys)]).running = false ∧ (s.run [.connected (some 0x2a), .pending s.pend.length (.leaseSet key ls keys)]).pend = [] := by
  have h1 : s.step (.connected (some 0x2a)) = { s with nextId := (s.nextId + 1) % 2 ^ 16, pend := s.pend ++ [{ sid := s.nextId, chk := s.chk }] } := by
    unfold Server.step
    dsimp only
    rw [if_pos ⟨hr, rfl⟩]
  rw [srun_cons, h1]
  simp only [Server.run, List.foldl_cons, List.foldl_nil]
  unfold Server.step
  dsimp only
  rw [show (s.pend ++ [({ sid := s.nextId, chk := s.chk } : Pend)])[s.pend.length]? = some { sid := s.nextId, chk := s.chk } by simp, hc]
  exact ⟨rfl, rfl⟩

/-- A client that was asked for a lease set and sends no private key with it ends the server and all pending sessions, with and without debug assertions. -/
theorem C188_keys_violated (s : Server D) (k : Nat) (p : Pend) (hk : s.pend[k]? = some p) (he : p.ended = none) (o : Options) (t : Tunnels) (hst : p.stage = .awaiting o t) (key ls : Bytes) :
    (s.step (.pending k (.leaseSet key ls []))).running = false ∧ (s.step (.pending k (.leaseSet key ls []))).pend = [] := by
  have := C187_other_violated p o t he hst key ls []
  unfold Server.step
  dsimp only
  rw [hk]
  dsimp only
  unfold Server.pending
  rw [this]
  exact ⟨rfl, rfl⟩

/-- When the server has ended no client can connect any more. -/
theorem C188_dead_violated (s : Server D) (hr : s.running = false) (b : Option UInt8) : s.step (.connected b) = s := by
  unfold Server.step
  dsimp only
  rw [if_neg (by rw [hr]; simp)]

/-- Clients that send a lease set with a key, and want at least one inbound tunnel. -/
def polite : Ev D → Prop
  | .pending _ (.leaseSet _ _ keys) => keys ≠ []
  | .pending _ (.create _ o _) => (Config.of o).numIn ≠ 0
  | _ => True

/-- The session has not panicked and will not at the last tunnel. -/
def Calm (p : Pend) : Prop := p.chk = false ∧ p.ended = none ∧ match p.stage with
  | .pool o => (Config.of o).numIn ≠ 0
  | .tunnels o _ => (Config.of o).numIn ≠ 0
  | _ => True

/-- What the step of a calm session comes to. -/
def Safe (p : Pend) : Prop := match p.ended with
  | none => Calm p
  | some .none => True
  | some .panic => False
  | some (.ready c) => c.keys ≠ []

theorem Calm.built {p : Pend} (h : Calm p) (o : Options) (t : Tunnels) (ho : (Config.of o).numIn ≠ 0) : Safe (p.built o t) := by
  obtain ⟨h1, h2, _⟩ := h
  unfold Pend.built
  split
  · unfold Safe
    dsimp only
    rw [h2]
    exact ⟨h1, rfl, ho⟩
  · rename_i hn
    have h3 : t.inbound.length = (Config.of o).numIn := Classical.byContradiction fun h => hn (.inl h)
    unfold I2cpMessage.mkLeaseRequest
    rw [if_neg (by
      intro h
      have : t.leases.length = t.inbound.length := List.length_map ..
      rw [h] at this
      exact ho (h3.symm.trans this.symm))]
    unfold Safe
    dsimp only [Pend.log]
    rw [h2]
    exact ⟨h1, rfl, trivial⟩

theorem Calm.step {p : Pend} (h : Calm p) (k : Nat) (o : Op) (ho : polite (.pending k o : Ev D)) : Safe (p.step o) := by
  have h' := h
  obtain ⟨h1, h2, h3⟩ := h
  have safe : Safe p := by
    unfold Safe
    rw [h2]
    exact h'
  have same : ∀ q : Pend, q.chk = p.chk → q.ended = p.ended → q.stage = p.stage → Safe q := by
    intro q a b c
    unfold Safe
    rw [b, h2]
    exact ⟨a.trans h1, b.trans h2, by rw [c]; exact h3⟩
  unfold Pend.step
  rw [if_neg (by rw [h2]; simp)]
  cases o with
  | getDate now => exact same _ rfl rfl rfl
  | getLimits => exact same _ rfl rfl rfl
  | destroy sid => exact same _ rfl rfl rfl
  | lookup a b => exact safe
  | other => exact safe
  | closed => exact trivial
  | create dest o acc =>
    dsimp only
    unfold Pend.create
    split
    · split
      · unfold Safe
        dsimp only [Pend.log]
        rw [h2]
        exact ⟨h1, rfl, ho⟩
      · exact safe
    · exact safe
  | leaseSet key ls keys =>
    dsimp only
    unfold Pend.leaseSet
    split
    · exact ho
    · rw [if_neg (by rw [h1]; simp)]
      exact safe
  | poolBuilt =>
    dsimp only
    split
    · rename_i o hst
      unfold Safe
      dsimp only
      rw [h2]
      rw [hst] at h3
      exact ⟨h1, rfl, h3⟩
    · exact safe
  | poolGone =>
    dsimp only
    split
    · exact trivial
    · exact safe
  | event e =>
    dsimp only
    unfold Pend.event
    split
    · rename_i o t hst
      rw [hst] at h3
      have hstage : ∀ t', Safe { p with stage := .tunnels o t' } := by
        intro t'
        unfold Safe
        dsimp only
        rw [h2]
        exact ⟨h1, rfl, h3⟩
      cases e with
      | inBuilt n l => exact h'.built o _ h3
      | outBuilt n => exact h'.built o _ h3
      | inExpired n => exact hstage _
      | outExpired n => exact hstage _
      | other => exact safe
    · exact safe

/-- Without debug assertions the server goes on as long as its clients send a key with their lease set and want at least one inbound tunnel. -/
theorem C188_running_partial (book : Bool) (es : List (Ev D)) (h : ∀ e ∈ es, polite e) : (Server.run { chk := false, book } es).running = true := by
  have key : ∀ (es : List (Ev D)) (s : Server D), s.running = true → s.chk = false → (∀ p ∈ s.pend, Calm p) → (∀ e ∈ es, polite e) → (s.run es).running = true := by
    intro es
    induction es with
    | nil => intro s h _ _ _; exact h
    | cons e es ih =>
      intro s hr hc hp he
      have hpol := he e List.mem_cons_self
      have step : (s.step e).running = true ∧ (s.step e).chk = false ∧ ∀ p ∈ (s.step e).pend, Calm p := by
        unfold Server.step
        cases e with
        | connected b =>
          dsimp only
          split
          · refine ⟨hr, hc, fun p hm => ?_⟩
            rcases List.mem_append.mp hm with hm | hm
            · exact hp p hm
            · cases List.mem_singleton.mp hm
              exact ⟨hc, rfl, trivial⟩
          · exact ⟨hr, hc, hp⟩
        | active k o => exact ⟨hr, hc, hp⟩
        | pending k o =>
          dsimp only
          split
          · rename_i p hk
            have hs := (hp p (List.mem_of_getElem? hk)).step (D := D) k o hpol
            have herase : ∀ q ∈ s.pend.eraseIdx k, Calm q := fun q hq => hp q (List.mem_of_mem_eraseIdx hq)
            unfold Safe at hs
            unfold Server.pending
            cases hen : (p.step o).ended with
            | none =>
              rw [hen] at hs
              refine ⟨hr, hc, fun q hq => ?_⟩
              rcases List.mem_or_eq_of_mem_set hq with hq | hq
              · exact hp q hq
              · rw [hq]; exact hs
            | some en =>
              rw [hen] at hs
              cases en with
              | none => exact ⟨hr, hc, herase⟩
              | panic => exact hs.elim
              | ready c =>
                dsimp only
                cases hkeys : c.keys with
                | nil => exact absurd hkeys hs
                | cons a l => exact ⟨hr, hc, herase⟩
          · exact ⟨hr, hc, hp⟩
      exact ih _ step.1 step.2.1 step.2.2 (fun e h => he e (List.mem_cons_of_mem _ h))
  exact key es _ rfl rfl (fun p h => by cases h) h

/-! ## The hypotheses are met -/

def toyLease : Lease := { router := List.replicate 32 7, tunnelId := 5, expires := 600 }
def toyOptions : Options := [⟨Datagram.ascii "inbound.quantity", Datagram.ascii "1"⟩, ⟨Datagram.ascii "outbound.quantity", Datagram.ascii "2"⟩]
def toyNone : Options := [⟨Datagram.ascii "inbound.quantity", Datagram.ascii "0"⟩, ⟨Datagram.ascii "outbound.quantity", Datagram.ascii "1"⟩]
def toyOps : List Op := [.getDate 5, .create [1] toyOptions true, .poolBuilt, .event (.outBuilt 8), .event (.outBuilt 9), .event (.inBuilt 5 toyLease)]
def toyMore : List Op := [.create [1] toyOptions true, .poolBuilt, .event (.inBuilt 5 toyLease), .event (.inBuilt 6 toyLease)]

example : Config.of toyOptions = ⟨1, 2, 2, 2⟩ := by decide +kernel
example : (Pend.run { sid := 3, chk := true } toyOps).out = [.date 5, .status 3 .created, .request 3 [toyLease]] := by decide +kernel
example := C187_request 3 true toyOps 3 [toyLease] (by decide +kernel)
example : ∃ c, (Pend.run { sid := 3, chk := true } (toyOps ++ [.leaseSet [1] [2] [[3]]])).ended = some (.ready c) := ⟨_, rfl⟩
example : Building 3 true (toyOps.take 5) toyOptions ⟨[], [9, 8]⟩ := ⟨rfl, rfl⟩
example := C187_soon_partial 3 true (toyOps.take 5) toyOptions ⟨[], [9, 8]⟩ ⟨rfl, rfl⟩ 5 toyLease (by decide +kernel) (by decide +kernel)
example := C187_more_violated 3 true toyMore toyOptions ⟨[(6, toyLease), (5, toyLease)], []⟩ ⟨rfl, rfl⟩ (by decide +kernel) [8, 9]
example := C187_none_violated 3 true [.create [1] toyNone true, .poolBuilt] toyNone ⟨[], []⟩ ⟨rfl, rfl⟩ (by decide +kernel) rfl 8 (by decide) (by decide +kernel)
example := C188_early_violated ({ chk := true, book := true } : Server Nat) rfl rfl [1] [2] [[3]]
example := C188_keys_violated (({ chk := false, book := true } : Server Nat).run (.connected (some 0x2a) :: toyOps.map (.pending 0))) 0 _ rfl rfl toyOptions _ rfl [1] [2]
example := C188_running_partial (D := Nat) true (.connected (some 0x2a) :: .connected (some 3) :: (toyOps ++ [Op.leaseSet [1] [2] [[3]]]).map (.pending 0))
  (by simp [toyOps, polite]; decide +kernel)

end Emissary.I2cpServer
