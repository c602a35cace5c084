import Verif.Props.RoutingPath
/-!
# Routing paths over time
-/
namespace Emissary.RPath
open Emissary.I2np (Duration)

/-! ## Specification -/

/-- The life of a local outbound tunnel. -/
inductive Life where
  | unknown
  | built
  | expiring
  | gone
  deriving DecidableEq

/-- What an operation does to the life of a tunnel: it is built, is about to expire, and expires, in this order. -/
def Life.next (id : Nat) (o : Op) (x : Life) : Option Life :=
  match o with
  | .built i => if i = id then (if x = .unknown then some .built else none) else some x
  | .expiring _ i => if i = id then (if x = .built then some .expiring else none) else some x
  | .expired i => if i = id then (if x = .expiring then some .gone else none) else some x
  | _ => some x

/-- The life of a tunnel after a history that starts with some tunnels. -/
def lifeOf (out : List Nat) (id : Nat) (ops : List Op) : Option Life :=
  ops.foldl (fun x o => x.bind (Life.next id o)) (some (if id ∈ out then .built else .unknown))

/-- The tunnel pools announce tunnels in order and do not reuse ids. -/
def Orderly (out : List Nat) (ops : List Op) : Prop := ∀ id, (lifeOf out id ops).isSome

/-- The tunnel exists: it is built and not expired. -/
def Live (out : List Nat) (ops : List Op) (id : Nat) : Prop := lifeOf out id ops = some .built ∨ lifeOf out id ops = some .expiring

/-- The ids in the leases of remotes are different from the ids of local outbound tunnels. -/
def Separate (remote : Nat → Bool) (out : List Nat) (ops : List Op) : Prop :=
  (∀ id ∈ out, remote id = false) ∧ ∀ o ∈ ops, match o with
    | .built id => remote id = false
    | .expiring _ id => remote id = false
    | .expired id => remote id = false
    | .leases _ _ (some l) => ∀ x ∈ l, remote x.1 = true
    | _ => True

/-! ## Invariants of a handle -/

/-- The events for a handle respect the separation. -/
def EvOk (remote : Nat → Bool) : Event → Prop
  | .inboundBuilt l => ∀ x ∈ l, remote x.1 = true
  | .outBuilt id => remote id = false
  | .outExpiring id _ => remote id = false
  | .outExpired id => remote id = false

structure HInv (remote : Nat → Bool) (s : Hnd) : Prop where
  ok : s.tunnels.Ok
  cls : ∀ id k, s.tunnels.get id = some k → k.isIn = remote id
  q : ∀ e ∈ s.queue, EvOk remote e
  pin : ∀ p, s.path = some p → remote p.inbound = true ∧ (s.tunnels.get p.inbound).isSome
  pout : ∀ p, s.path = some p → remote p.outbound = false ∧ (s.tunnels.get p.outbound).isSome

/-- What an event says about an outbound tunnel. -/
def view (id : Nat) (b : Bool) : Event → Bool
  | .inboundBuilt _ => b
  | .outBuilt i => if i = id then true else b
  | .outExpiring i _ => if i = id then true else b
  | .outExpired i => if i = id then false else b

theorem HInv.drop {remote : Nat → Bool} {s : Hnd} (h : HInv remote s) : HInv remote s.drop :=
  ⟨h.ok, h.cls, h.q, by simp [Hnd.drop], by simp [Hnd.drop]⟩

theorem get_puts_in {remote : Nat → Bool} {t : AMap Nat Kind} {l : List Lease} (hl : ∀ x ∈ l, remote x.1 = true) (id : Nat) :
    (remote id = false → (t.puts (l.map fun x => (x.1, Kind.inbound x.2))).get id = t.get id) ∧
    ∀ k, (t.puts (l.map fun x => (x.1, Kind.inbound x.2))).get id = some k → t.get id = some k ∨ (remote id = true ∧ ∃ e, k = .inbound e ∧ (id, e) ∈ l) := by
  rw [AMap.get_puts]
  cases h : AMap.get (l.map fun x => (x.1, Kind.inbound x.2)).reverse id with
  | none => exact ⟨fun _ => rfl, fun k hk => .inl hk⟩
  | some v =>
    have hm := AMap.get_mem h
    rw [List.mem_reverse] at hm
    obtain ⟨x, hx, e⟩ := List.mem_map.mp hm
    have e1 := congrArg Prod.fst e
    have e2 := congrArg Prod.snd e
    simp only at e1 e2
    have hr := hl x hx
    rw [e1] at hr
    refine ⟨fun hf => (Bool.false_ne_true (hf ▸ hr)).elim, ?_⟩
    intro k hk
    cases hk
    exact .inr ⟨hr, x.2, e2.symm, by rw [← e1]; exact hx⟩

theorem isSome_puts {t : AMap Nat Kind} (l : List (Nat × Kind)) {id : Nat} (h : (t.get id).isSome) : ((t.puts l).get id).isSome := by
  rw [AMap.get_puts]
  cases AMap.get l.reverse id with
  | none => exact h
  | some v => rfl

/-- An event keeps the invariant, and does to outbound tunnels what it says. -/
theorem event_inv {remote : Nat → Bool} {s : Hnd} (h : HInv remote s) (now : Duration) {e : Event} (he : EvOk remote e) :
    HInv remote (s.event now e) ∧ (∀ id, remote id = false → (((s.event now e).tunnels.get id).isSome = view id (s.tunnels.get id).isSome e)) ∧
      (s.event now e).queue = s.queue ∧ (s.event now e).lost = s.lost ∧ (s.event now e).dest = s.dest ∧ (s.event now e).alive = s.alive := by
  cases e with
  | inboundBuilt l =>
    simp only [EvOk] at he
    have key : ∀ s' : Hnd, HInv remote s' → s'.tunnels = s.tunnels →
        HInv remote { s' with tunnels := (s'.tunnels.puts (l.map fun x => (x.1, Kind.inbound x.2))).keep (retained (s'.path.map (·.inbound)) now) } ∧
        ∀ id, remote id = false → ((AMap.get ((s'.tunnels.puts (l.map fun x => (x.1, Kind.inbound x.2))).keep (retained (s'.path.map (·.inbound)) now)) id).isSome = (s.tunnels.get id).isSome) := by
      intro s' h' ht
      have hok := AMap.ok_puts (l.map fun x => (x.1, Kind.inbound x.2)) h'.ok
      have hout : ∀ id, remote id = false → AMap.get ((s'.tunnels.puts (l.map fun x => (x.1, Kind.inbound x.2))).keep (retained (s'.path.map (·.inbound)) now)) id = s'.tunnels.get id := by
        intro id hid
        rw [AMap.get_keep hok, (get_puts_in he id).1 hid]
        cases hk : s'.tunnels.get id with
        | none => rfl
        | some k =>
          have := h'.cls id k hk
          rw [hid] at this
          cases k <;> first | rfl | (cases this)
      refine ⟨⟨AMap.ok_keep hok _, ?_, h'.q, ?_, ?_⟩, ?_⟩
      · intro id k hk
        simp only at hk
        rw [AMap.get_keep hok] at hk
        have hk := (Option.filter_eq_some_iff.mp hk).1
        rcases (get_puts_in he id).2 k hk with hk | ⟨hr, e, rfl, _⟩
        · exact h'.cls id k hk
        · rw [hr]; rfl
      · intro p hp
        obtain ⟨h1, h2⟩ := h'.pin p hp
        refine ⟨h1, ?_⟩
        simp only
        rw [AMap.get_keep hok]
        obtain ⟨k, hk⟩ := Option.isSome_iff_exists.mp (isSome_puts (l.map fun x => (x.1, Kind.inbound x.2)) h2)
        rw [hk, Option.filter_some, if_pos]
        · rfl
        · simp only at hp
          cases k <;> simp [retained, hp]
      · intro p hp
        obtain ⟨h1, h2⟩ := h'.pout p hp
        exact ⟨h1, by simp only; rw [hout _ h1]; exact h2⟩
      · intro id hid
        rw [hout id hid, ht]
    simp only [Hnd.event, view]
    cases hp : s.path with
    | none => exact ⟨(by have := (key s h rfl).1; rw [hp] at this; simpa [hp] using this), (by have := (key s h rfl).2; rw [hp] at this; simpa [hp] using this), rfl, rfl, rfl, rfl⟩
    | some p =>
      simp only
      split
      · exact ⟨(key s.drop h.drop rfl).1, (key s.drop h.drop rfl).2, rfl, rfl, rfl, rfl⟩
      · exact ⟨(key s h rfl).1, (key s h rfl).2, rfl, rfl, rfl, rfl⟩
  | outBuilt i =>
    simp only [EvOk] at he
    have key : ∀ s' : Hnd, HInv remote s' → HInv remote { s' with tunnels := s'.tunnels.put i .outbound } := by
      intro s' h'
      refine ⟨AMap.ok_put h'.ok _ _, ?_, h'.q, ?_, ?_⟩
      · intro id k hk
        simp only [AMap.get_put] at hk
        split at hk
        · rename_i e; cases hk; rw [e, he]; rfl
        · exact h'.cls id k hk
      · intro p hp
        obtain ⟨h1, h2⟩ := h'.pin p hp
        refine ⟨h1, ?_⟩
        simp only [AMap.get_put]; split <;> simp [h2]
      · intro p hp
        obtain ⟨h1, h2⟩ := h'.pout p hp
        refine ⟨h1, ?_⟩
        simp only [AMap.get_put]; split <;> simp [h2]
    have key2 : ∀ s' : Hnd, s'.tunnels = s.tunnels → ∀ id, ((AMap.get (s'.tunnels.put i .outbound) id).isSome = if i = id then true else (s.tunnels.get id).isSome) := by
      intro s' ht id
      rw [AMap.get_put, ht]
      by_cases e : id = i
      · simp [e]
      · simp [e, Ne.symm e]
    simp only [Hnd.event, view]
    cases hp : s.path with
    | none => exact ⟨by have := key s h; simpa [hp] using this, fun id _ => key2 s rfl id, rfl, rfl, rfl, rfl⟩
    | some p =>
      simp only
      split
      · exact ⟨key s.drop h.drop, fun id _ => key2 s.drop rfl id, rfl, rfl, rfl, rfl⟩
      · exact ⟨key s.drop h.drop, fun id _ => key2 s.drop rfl id, rfl, rfl, rfl, rfl⟩
      · exact ⟨key s h, fun id _ => key2 s rfl id, rfl, rfl, rfl, rfl⟩
  | outExpiring i e =>
    simp only [EvOk] at he
    have key : HInv remote { s with tunnels := s.tunnels.put i (.expiringOut e) } := by
      refine ⟨AMap.ok_put h.ok _ _, ?_, h.q, ?_, ?_⟩
      · intro id k hk
        simp only [AMap.get_put] at hk
        split at hk
        · rename_i e; cases hk; rw [e, he]; rfl
        · exact h.cls id k hk
      · intro p hp
        obtain ⟨h1, h2⟩ := h.pin p hp
        refine ⟨h1, ?_⟩
        simp only [AMap.get_put]; split <;> simp [h2]
      · intro p hp
        obtain ⟨h1, h2⟩ := h.pout p hp
        refine ⟨h1, ?_⟩
        simp only [AMap.get_put]; split <;> simp [h2]
    have key2 : ∀ id, ((AMap.get (s.tunnels.put i (.expiringOut e)) id).isSome = if i = id then true else (s.tunnels.get id).isSome) := by
      intro id
      rw [AMap.get_put]
      by_cases e : id = i
      · simp [e]
      · simp [e, Ne.symm e]
    simp only [Hnd.event, view]
    split
    · exact ⟨key.drop, fun id _ => key2 id, rfl, rfl, rfl, rfl⟩
    · exact ⟨key, fun id _ => key2 id, rfl, rfl, rfl, rfl⟩
  | outExpired i =>
    simp only [EvOk] at he
    have hget : ∀ id, AMap.get (s.tunnels.del i) id = if id = i then none else s.tunnels.get id := fun id => AMap.get_del _ _ _
    have key2 : ∀ id, ((AMap.get (s.tunnels.del i) id).isSome = if i = id then false else (s.tunnels.get id).isSome) := by
      intro id
      rw [hget]
      by_cases e : id = i
      · simp [e]
      · simp [e, Ne.symm e]
    have cls : ∀ id k, AMap.get (s.tunnels.del i) id = some k → k.isIn = remote id := by
      intro id k hk
      rw [hget] at hk
      split at hk
      · cases hk
      · exact h.cls id k hk
    simp only [Hnd.event, view]
    split
    · exact ⟨⟨AMap.ok_del h.ok _, cls, h.q, by simp [Hnd.drop], by simp [Hnd.drop]⟩, fun id _ => key2 id, rfl, rfl, rfl, rfl⟩
    · rename_i hne
      refine ⟨⟨AMap.ok_del h.ok _, cls, h.q, ?_, ?_⟩, fun id _ => key2 id, rfl, rfl, rfl, rfl⟩
      · intro p hp
        obtain ⟨h1, h2⟩ := h.pin p hp
        refine ⟨h1, ?_⟩
        simp only [hget]
        rw [if_neg]
        · exact h2
        · intro e; rw [e, he] at h1; cases h1
      · intro p hp
        obtain ⟨h1, h2⟩ := h.pout p hp
        refine ⟨h1, ?_⟩
        simp only [hget]
        rw [if_neg]
        · exact h2
        · intro e; simp only at hp; simp only [hp, Option.map_some, e] at hne; exact hne trivial

theorem make_inv {remote : Nat → Bool} {s : Hnd} (h : HInv remote s) (now : Duration) (r : Rand) (rid : Option Nat) :
    HInv remote (s.make now r rid).2.1 ∧ (s.make now r rid).2.1.tunnels = s.tunnels ∧ (s.make now r rid).2.1.queue = s.queue ∧
      (s.make now r rid).2.1.lost = s.lost ∧ (s.make now r rid).2.1.dest = s.dest ∧ (s.make now r rid).2.1.alive = s.alive := by
  unfold Hnd.make
  have ho := C51_outbound_choice h.ok now r.out
  have hi := C51_lease_choice h.ok now r.inb
  split
  · exact ⟨h, rfl, rfl, rfl, rfl, rfl⟩
  · rename_i o eo
    rw [eo] at ho
    obtain ⟨k, hk, hs, _⟩ := ho
    split
    · rename_i i e ei
      rw [ei] at hi
      obtain ⟨k', hk', he, _, _⟩ := hi
      refine ⟨⟨h.ok, h.cls, h.q, ?_, ?_⟩, rfl, rfl, rfl, rfl, rfl⟩
      · intro p hp
        cases hp
        exact ⟨by rw [← h.cls _ _ hk']; simp [Kind.isIn, he], by simp [hk']⟩
      · intro p hp
        cases hp
        refine ⟨?_, by simp [hk]⟩
        rw [← h.cls _ _ hk]
        cases k <;> first | rfl | (simp [Kind.outScore] at hs)
    · split
      · exact ⟨⟨h.ok, h.cls, h.q, h.pin, h.pout⟩, rfl, rfl, rfl, rfl, rfl⟩
      · exact ⟨h, rfl, rfl, rfl, rfl, rfl⟩

theorem get_inv {remote : Nat → Bool} {s : Hnd} (h : HInv remote s) (now : Duration) (r : Rand) (rid : Option Nat) :
    HInv remote (s.get now r rid).2.1 ∧ (s.get now r rid).2.1.tunnels = s.tunnels ∧ (s.get now r rid).2.1.queue = s.queue ∧
      (s.get now r rid).2.1.lost = s.lost ∧ (s.get now r rid).2.1.dest = s.dest ∧ (s.get now r rid).2.1.alive = s.alive := by
  unfold Hnd.get
  split
  · exact ⟨h, rfl, rfl, rfl, rfl, rfl⟩
  · exact make_inv h now r rid

/-- Marking the tunnels of a path as faulty works, if ids are separate. -/
theorem fail_spec {remote : Nat → Bool} {s : Hnd} (h : HInv remote s) {p : Path} (hp : s.path = some p) :
    ∃ e k t1 t2, ((s.tunnels.get p.inbound = some (.inbound e) ∨ s.tunnels.get p.inbound = some (.failingIn e)) ∧ s.tunnels.get p.outbound = some k) ∧
      failIn s.tunnels p.inbound = some t1 ∧ failOut t1 p.outbound = some t2 ∧ t2.Ok ∧ p.inbound ≠ p.outbound ∧
      t1 = s.tunnels.put p.inbound (.failingIn e) ∧ ∃ x, t2 = t1.put p.outbound (.failingOut x) ∧
        ((k = .outbound ∧ x = none) ∨ (∃ e, k = .expiringOut e ∧ x = some e) ∨ k = .failingOut x) := by
  obtain ⟨i1, i2⟩ := h.pin p hp
  obtain ⟨o1, o2⟩ := h.pout p hp
  have hne : p.inbound ≠ p.outbound := by intro e; rw [e, o1] at i1; cases i1
  obtain ⟨ki, hki⟩ := Option.isSome_iff_exists.mp i2
  obtain ⟨ko, hko⟩ := Option.isSome_iff_exists.mp o2
  have ci := h.cls _ _ hki
  have co := h.cls _ _ hko
  rw [i1] at ci
  rw [o1] at co
  have hko' : ∀ v, (s.tunnels.put p.inbound v).get p.outbound = some ko := by intro v; rw [AMap.get_put, if_neg (Ne.symm hne)]; exact hko
  have : ∃ e, (s.tunnels.get p.inbound = some (.inbound e) ∨ s.tunnels.get p.inbound = some (.failingIn e)) ∧ failIn s.tunnels p.inbound = some (s.tunnels.put p.inbound (.failingIn e)) := by
    cases ki with
    | inbound e => exact ⟨e, .inl hki, by simp [failIn, hki]⟩
    | failingIn e => exact ⟨e, .inr hki, by simp [failIn, hki]⟩
    | _ => cases ci
  obtain ⟨e, h1, h2⟩ := this
  have ok1 := AMap.ok_put h.ok p.inbound (.failingIn e)
  cases ko with
  | outbound => exact ⟨e, _, _, _, ⟨h1, hko⟩, h2, by simp only [failOut, hko'], AMap.ok_put ok1 _ _, hne, rfl, none, rfl, .inl ⟨rfl, rfl⟩⟩
  | expiringOut e' => exact ⟨e, _, _, _, ⟨h1, hko⟩, h2, by simp only [failOut, hko'], AMap.ok_put ok1 _ _, hne, rfl, some e', rfl, .inr (.inl ⟨e', rfl, rfl⟩)⟩
  | failingOut x => exact ⟨e, _, _, _, ⟨h1, hko⟩, h2, by simp only [failOut, hko'], AMap.ok_put ok1 _ _, hne, rfl, x, rfl, .inr (.inr rfl)⟩
  | inbound _ => cases co
  | failingIn _ => cases co

/-- The state in which a handle looks for a new path after its path was found faulty. -/
def faulty (s : Hnd) (p : Path) (e : Duration) (x : Option Duration) : Hnd :=
  { s with timer := none, tunnels := (s.tunnels.put p.inbound (.failingIn e)).put p.outbound (.failingOut x) }

theorem recreate_eq {remote : Nat → Bool} {s : Hnd} (h : HInv remote s) (chk : Bool) (now : Duration) (r : Rand) (rid : Option Nat) {p : Path} (hp : s.path = some p) :
    ∃ e x k, (s.tunnels.get p.inbound = some (.inbound e) ∨ s.tunnels.get p.inbound = some (.failingIn e)) ∧ s.tunnels.get p.outbound = some k ∧
      ((k = .outbound ∧ x = none) ∨ (∃ e, k = .expiringOut e ∧ x = some e) ∨ k = .failingOut x) ∧ p.inbound ≠ p.outbound ∧
      HInv remote (faulty s p e x) ∧
      s.recreate chk now r rid = (some ((faulty s p e x).make now r rid).1, ((faulty s p e x).make now r rid).2) := by
  obtain ⟨e, k, t1, t2, ⟨h1, h2⟩, h3, h4, h5, h6, rfl, x, rfl, h7⟩ := fail_spec h hp
  obtain ⟨i1, i2⟩ := h.pin p hp
  obtain ⟨o1, o2⟩ := h.pout p hp
  refine ⟨e, x, k, h1, h2, h7, h6, ⟨h5, ?_, h.q, ?_, ?_⟩, ?_⟩
  · intro id k hk
    simp only [faulty, AMap.get_put] at hk
    split at hk
    · rename_i e; cases hk; rw [e, o1]; rfl
    · split at hk
      · rename_i e; cases hk; rw [e, i1]; rfl
      · exact h.cls id k hk
  · intro q hq
    refine ⟨(h.pin q hq).1, ?_⟩
    have := (h.pin q hq).2
    simp only [faulty, AMap.get_put]
    split
    · rfl
    · split
      · rfl
      · exact this
  · intro q hq
    refine ⟨(h.pout q hq).1, ?_⟩
    have := (h.pout q hq).2
    simp only [faulty, AMap.get_put]
    split
    · rfl
    · split
      · rfl
      · exact this
  · simp only [Hnd.recreate, hp, h3, h4, Option.isNone_some, Bool.and_false, Bool.false_eq_true, if_false, Option.getD_some, faulty]

theorem recreate_inv {remote : Nat → Bool} {s : Hnd} (h : HInv remote s) (chk : Bool) (now : Duration) (r : Rand) (rid : Option Nat) :
    (s.recreate chk now r rid).1.isSome ∧ HInv remote (s.recreate chk now r rid).2.1 ∧
      (∀ id, (((s.recreate chk now r rid).2.1.tunnels.get id).isSome = (s.tunnels.get id).isSome)) ∧ (s.recreate chk now r rid).2.1.queue = s.queue ∧
      (s.recreate chk now r rid).2.1.lost = s.lost ∧ (s.recreate chk now r rid).2.1.dest = s.dest ∧ (s.recreate chk now r rid).2.1.alive = s.alive := by
  cases hp : s.path with
  | none =>
    have := make_inv h now r rid
    simp only [Hnd.recreate, hp]
    exact ⟨rfl, this.1, fun id => by rw [this.2.1], this.2.2⟩
  | some p =>
    obtain ⟨e, x, k, h1, h2, _, _, h3, h4⟩ := recreate_eq h chk now r rid hp
    rw [h4]
    have := make_inv h3 now r rid
    refine ⟨rfl, this.1, ?_, this.2.2⟩
    intro id
    simp only
    rw [this.2.1]
    simp only [faulty, AMap.get_put]
    split
    · rename_i e; rw [e, h2]; rfl
    · split
      · rename_i e; rw [e]; rcases h1 with h1 | h1 <;> rw [h1] <;> rfl
      · rfl

theorem tick_inv {remote : Nat → Bool} {s : Hnd} (h : HInv remote s) (now : Duration) :
    HInv remote (s.tick now) ∧ (s.tick now).tunnels = s.tunnels ∧ (s.tick now).queue = s.queue ∧ (s.tick now).lost = s.lost ∧ (s.tick now).dest = s.dest ∧ (s.tick now).alive = s.alive := by
  unfold Hnd.tick
  split
  · split
    · exact ⟨h.drop, rfl, rfl, rfl, rfl, rfl⟩
    · exact ⟨h, rfl, rfl, rfl, rfl, rfl⟩
  · exact ⟨h, rfl, rfl, rfl, rfl, rfl⟩

theorem events_inv {remote : Nat → Bool} (now : Duration) (l : List Event) : ∀ {s : Hnd}, HInv remote s → (∀ e ∈ l, EvOk remote e) →
    HInv remote (l.foldl (fun s e => s.event now e) s) ∧
      (∀ id, remote id = false → (((l.foldl (fun s e => s.event now e) s).tunnels.get id).isSome = l.foldl (view id) (s.tunnels.get id).isSome)) ∧
      (l.foldl (fun s e => s.event now e) s).lost = s.lost ∧ (l.foldl (fun s e => s.event now e) s).dest = s.dest ∧ (l.foldl (fun s e => s.event now e) s).alive = s.alive := by
  induction l with
  | nil => intro s h _; exact ⟨h, fun _ _ => rfl, rfl, rfl, rfl⟩
  | cons e l ih =>
    intro s h hl
    have h1 := event_inv h now (hl e List.mem_cons_self)
    have h2 := ih h1.1 (fun x hx => hl x (List.mem_cons_of_mem _ hx))
    simp only [List.foldl_cons]
    refine ⟨h2.1, ?_, h2.2.2.1.trans h1.2.2.2.1, h2.2.2.2.1.trans h1.2.2.2.2.1, h2.2.2.2.2.trans h1.2.2.2.2.2⟩
    intro id hid
    rw [h2.2.1 id hid, h1.2.1 id hid]

theorem answer_spec {s s' : Hnd} {f : Nat → Option Bool} (h : s.answer f = some s') : ∃ q, s' = { s with query := q } := by
  unfold Hnd.answer at h
  split at h
  · split at h
    · exact ⟨s.query, by cases h; rfl⟩
    · exact ⟨_, by cases h; rfl⟩
    · split at h
      · cases h
      · exact ⟨_, by cases h; rfl⟩
  · exact ⟨s.query, by cases h; rfl⟩

theorem poll_inv {remote : Nat → Bool} {s : Hnd} (h : HInv remote s) (now : Duration) (f : Nat → Option Bool) :
    HInv remote (s.poll now f).2 ∧ (s.poll now f).2.lost = s.lost ∧ (s.poll now f).2.dest = s.dest ∧
      (((s.poll now f).1 = true ∧ (s.poll now f).2 = { s with alive := false }) ∨
        (s.poll now f).1 = false ∧ (s.poll now f).2.queue = [] ∧ (s.poll now f).2.alive = s.alive ∧
          ∀ id, remote id = false → (((s.poll now f).2.tunnels.get id).isSome = s.queue.foldl (view id) (s.tunnels.get id).isSome)) := by
  unfold Hnd.poll
  split
  · exact ⟨⟨h.ok, h.cls, h.q, h.pin, h.pout⟩, rfl, rfl, .inl ⟨rfl, rfl⟩⟩
  · rename_i s' hs
    obtain ⟨q, rfl⟩ := answer_spec hs
    have h' : HInv remote { s with query := q } := ⟨h.ok, h.cls, h.q, h.pin, h.pout⟩
    have t := tick_inv h' now
    have e := events_inv now s.queue t.1 h.q
    refine ⟨⟨e.1.ok, e.1.cls, by simp, e.1.pin, e.1.pout⟩, e.2.2.1.trans t.2.2.2.1, e.2.2.2.1.trans t.2.2.2.2.1, .inr ⟨rfl, rfl, e.2.2.2.2.trans t.2.2.2.2.2, ?_⟩⟩
    intro id hid
    simp only
    rw [e.2.1 id hid, t.2.1]

/-! ## Invariants of the manager -/

/-- `Live`, computed. -/
def liveB (out : List Nat) (ops : List Op) (id : Nat) : Bool := lifeOf out id ops = some .built || lifeOf out id ops = some .expiring

theorem lifeOf_snoc (out : List Nat) (id : Nat) (ops : List Op) (o : Op) : lifeOf out id (ops ++ [o]) = (lifeOf out id ops).bind (Life.next id o) := by
  simp [lifeOf, List.foldl_append]

theorem Orderly.init {out : List Nat} {ops : List Op} {o : Op} (h : Orderly out (ops ++ [o])) : Orderly out ops := by
  intro id
  have := h id
  rw [lifeOf_snoc] at this
  cases hl : lifeOf out id ops with
  | none => rw [hl] at this; cases this
  | some x => rfl

theorem Separate.init {remote : Nat → Bool} {out : List Nat} {ops : List Op} {o : Op} (h : Separate remote out (ops ++ [o])) : Separate remote out ops :=
  ⟨h.1, fun x hx => h.2 x (List.mem_append_left _ hx)⟩

theorem run_append (chk : Bool) (a b : List Op) : ∀ s : Sys, run chk s (a ++ b) = run chk (run chk s a) b := by
  induction a with
  | nil => intro s; rfl
  | cons o a ih => intro s; exact ih _

/-- A handle is in step with what is registered, once it has seen what is in its queue. -/
def Synced (remote : Nat → Bool) (L : Nat → Bool) (h : Hnd) : Prop :=
  HInv remote h ∧ (h.alive = true → h.lost = false → ∀ id, remote id = false → h.queue.foldl (view id) (h.tunnels.get id).isSome = L id)

structure SInv (remote : Nat → Bool) (out : List Nat) (ops : List Op) (s : Sys) : Prop where
  m1 : ∀ id, id ∈ s.outbound ↔ lifeOf out id ops = some .built
  m2 : ∀ id, (∃ e, (id, e) ∈ s.expiring) ↔ lifeOf out id ops = some .expiring
  ls : ∀ d l x, s.leases.get d = some l → x ∈ l → remote x.1 = true
  hs : ∀ h ∈ s.handles, Synced remote (liveB out ops) h

theorem notify_synced {remote : Nat → Bool} {L L' : Nat → Bool} {h : Hnd} (hh : Synced remote L h) {e : Event} (he : EvOk remote e)
    (hL : ∀ id, remote id = false → L' id = view id (L id) e) : Synced remote L' (h.notify e) := by
  obtain ⟨h1, h2⟩ := hh
  unfold Hnd.notify
  split
  · rename_i ha
    split
    · refine ⟨⟨h1.ok, h1.cls, ?_, h1.pin, h1.pout⟩, ?_⟩
      · intro x hx
        rcases List.mem_append.mp hx with hx | hx
        · exact h1.q x hx
        · rw [List.mem_singleton.mp hx]; exact he
      · intro a l id hid
        simp only [List.foldl_append, List.foldl_cons, List.foldl_nil]
        rw [h2 a l id hid, hL id hid]
    · exact ⟨⟨h1.ok, h1.cls, h1.q, h1.pin, h1.pout⟩, fun _ h => by cases h⟩
  · rename_i ha
    exact ⟨h1, fun h => absurd h ha⟩

theorem new_get {d : Nat} {inb : List Lease} {out : List Nat} {exp : List (Nat × Duration)} {id : Nat} {k : Kind} (h : (Hnd.new d inb out exp).tunnels.get id = some k) :
    (∃ e, k = .inbound e ∧ (id, e) ∈ inb) ∨ (k = .outbound ∧ id ∈ out) ∨ ∃ e, k = .expiringOut e ∧ (id, e) ∈ exp := by
  simp only [Hnd.new, AMap.get_puts] at h
  split at h
  · rename_i v hv
    cases h
    have := AMap.get_mem hv
    simp only [List.mem_reverse, List.mem_append, List.mem_map, Prod.exists] at this
    rcases this with (⟨a, b, h1, h2⟩ | ⟨a, h1, h2⟩) | ⟨a, b, h1, h2⟩
    · cases h2; exact .inl ⟨b, rfl, h1⟩
    · cases h2; exact .inr (.inl ⟨rfl, h1⟩)
    · cases h2; exact .inr (.inr ⟨b, rfl, h1⟩)
  · cases h

theorem get_isSome_of_mem {α β : Type} [DecidableEq α] {m : AMap α β} {k : α} {v : β} (h : (k, v) ∈ m) : (m.get k).isSome := by
  induction m with
  | nil => cases h
  | cons x m ih =>
    rw [AMap.get_cons]
    split
    · rfl
    · rename_i hne
      rcases List.mem_cons.mp h with rfl | h
      · exact absurd rfl hne
      · exact ih h

theorem new_isSome {d : Nat} {inb : List Lease} {out : List Nat} {exp : List (Nat × Duration)} {id : Nat} (h : id ∈ out ∨ ∃ e, (id, e) ∈ exp) :
    ((Hnd.new d inb out exp).tunnels.get id).isSome := by
  simp only [Hnd.new, AMap.get_puts]
  have : ∃ v, (id, v) ∈ (inb.map (fun x => (x.1, Kind.inbound x.2)) ++ out.map (fun x => (x, Kind.outbound)) ++ exp.map fun x => (x.1, Kind.expiringOut x.2)).reverse := by
    simp only [List.mem_reverse, List.mem_append, List.mem_map, Prod.exists]
    rcases h with h | ⟨e, h⟩
    · exact ⟨.outbound, .inl (.inr ⟨id, h, rfl⟩)⟩
    · exact ⟨.expiringOut e, .inr ⟨id, e, h, rfl⟩⟩
  obtain ⟨v, hv⟩ := this
  obtain ⟨w, hw⟩ := Option.isSome_iff_exists.mp (get_isSome_of_mem hv)
  rw [hw]; rfl

theorem set_synced {remote : Nat → Bool} {L : Nat → Bool} {l : List Hnd} (h : ∀ x ∈ l, Synced remote L x) {y : Hnd} (hy : Synced remote L y) (i : Nat) :
    ∀ x ∈ l.set i y, Synced remote L x := by
  intro x hx
  rcases List.mem_or_eq_of_mem_set hx with hx | rfl
  · exact h x hx
  · exact hy

/-- Operations that say nothing about outbound tunnels. -/
theorem liveB_same {out : List Nat} {ops : List Op} {o : Op} (h : ∀ id x, Life.next id o x = some x) (id : Nat) : lifeOf out id (ops ++ [o]) = lifeOf out id ops := by
  rw [lifeOf_snoc]
  cases lifeOf out id ops with
  | none => rfl
  | some x => exact h id x

theorem SInv.same {remote : Nat → Bool} {out : List Nat} {ops : List Op} {o : Op} (h : ∀ id x, Life.next id o x = some x) {s : Sys} (hs : SInv remote out ops s) : SInv remote out (ops ++ [o]) s := by
  have e := liveB_same (out := out) (ops := ops) h
  have e' : liveB out (ops ++ [o]) = liveB out ops := by funext id; simp only [liveB, e]
  exact ⟨fun id => by rw [e]; exact hs.m1 id, fun id => by rw [e]; exact hs.m2 id, hs.ls, by rw [e']; exact hs.hs⟩

theorem sent_handles (s : Sys) (d : Nat) (b : Bool) : (s.sent d b).handles = s.handles ∧ (s.sent d b).outbound = s.outbound ∧ (s.sent d b).expiring = s.expiring ∧ (s.sent d b).leases = s.leases := by
  unfold Sys.sent; split <;> exact ⟨rfl, rfl, rfl, rfl⟩

theorem SInv.handles {remote : Nat → Bool} {out : List Nat} {ops : List Op} {s s' : Sys} (h : SInv remote out ops s) (h1 : s'.outbound = s.outbound) (h2 : s'.expiring = s.expiring)
    (h3 : s'.leases = s.leases) (h4 : ∀ x ∈ s'.handles, Synced remote (liveB out ops) x) : SInv remote out ops s' :=
  ⟨by rw [h1]; exact h.m1, by rw [h2]; exact h.m2, by rw [h3]; exact h.ls, h4⟩

theorem get_synced {remote : Nat → Bool} {L : Nat → Bool} {x : Hnd} (hx : Synced remote L x) (now : Duration) (r : Rand) (rid : Option Nat) : Synced remote L (x.get now r rid).2.1 := by
  obtain ⟨h1, h2, h3, h4, _, h6⟩ := get_inv hx.1 now r rid
  refine ⟨h1, ?_⟩
  rw [h2, h3, h4, h6]; exact hx.2

theorem recreate_synced {remote : Nat → Bool} {L : Nat → Bool} {x : Hnd} (hx : Synced remote L x) (chk : Bool) (now : Duration) (r : Rand) (rid : Option Nat) :
    Synced remote L (x.recreate chk now r rid).2.1 := by
  obtain ⟨_, h1, h2, h3, h4, _, h6⟩ := recreate_inv hx.1 chk now r rid
  refine ⟨h1, ?_⟩
  simp only [h2]
  rw [h3, h4, h6]; exact hx.2

theorem poll_synced {remote : Nat → Bool} {L : Nat → Bool} {x : Hnd} (hx : Synced remote L x) (now : Duration) (f : Nat → Option Bool) : Synced remote L (x.poll now f).2 := by
  obtain ⟨h1, h2, _, h4⟩ := poll_inv hx.1 now f
  refine ⟨h1, ?_⟩
  rcases h4 with ⟨_, h4⟩ | ⟨_, h4, h5, h6⟩
  · rw [h4]; intro h; cases h
  · rw [h2, h4, h5]
    intro a l id hid
    rw [List.foldl_nil, h6 id hid]
    exact hx.2 a l id hid

theorem step_inv {remote : Nat → Bool} {out : List Nat} {ops : List Op} {o : Op} {s : Sys} (chk : Bool) (h : SInv remote out ops s) (ho : Orderly out (ops ++ [o]))
    (hsep : Separate remote out (ops ++ [o])) : SInv remote out (ops ++ [o]) (step chk s o).2 := by
  have hso := hsep.2 o (List.mem_append_right _ (List.mem_singleton_self _))
  have hlife : ∀ id, (∃ x y, lifeOf out id ops = some x ∧ Life.next id o x = some y ∧ lifeOf out id (ops ++ [o]) = some y) := by
    intro id
    obtain ⟨y, hy⟩ := Option.isSome_iff_exists.mp (ho id)
    rw [lifeOf_snoc] at hy
    obtain ⟨x, hx, hxy⟩ := Option.bind_eq_some_iff.mp hy
    exact ⟨x, y, hx, hxy, by rw [lifeOf_snoc, hx]; exact hxy⟩
  cases o with
  | subscribe d =>
    refine (h.same (o := .subscribe d) (fun _ _ => rfl)).handles rfl rfl rfl ?_
    have h := h.same (o := .subscribe d) (fun _ _ => rfl)
    intro x hx
    rcases List.mem_append.mp hx with hx | hx
    · exact h.hs x hx
    · rw [List.mem_singleton.mp hx]
      have hls : ∀ x ∈ (s.leases.get d).getD [], remote x.1 = true := by
        intro x hx
        cases hl : s.leases.get d with
        | none => rw [hl] at hx; cases hx
        | some l => rw [hl] at hx; exact h.ls d l x hl hx
      have hro : ∀ id, id ∈ s.outbound ∨ (∃ e, (id, e) ∈ s.expiring) → remote id = false := by
        intro id hid
        have hne : lifeOf out id (ops ++ [.subscribe d]) ≠ some .unknown := by
          rcases hid with hid | hid
          · rw [(h.m1 id).mp hid]; simp
          · rw [(h.m2 id).mp hid]; simp
        by_cases hin : id ∈ out
        · exact hsep.1 id hin
        · cases hr : remote id with
          | false => rfl
          | true =>
            exfalso
            apply hne
            have key : ∀ l : List Op, (∀ o ∈ l, o ∈ ops ++ [.subscribe d]) → l.foldl (fun x o => x.bind (Life.next id o)) (some .unknown) = some .unknown := by
              intro l hl
              induction l with
              | nil => rfl
              | cons o l ih =>
                have hn : Life.next id o .unknown = some .unknown := by
                  have := hsep.2 o (hl o List.mem_cons_self)
                  cases o <;> first | rfl | skip
                  all_goals
                    simp only at this
                    simp only [Life.next]
                    rw [if_neg]
                    intro e; rw [e, hr] at this; cases this
                rw [List.foldl_cons, Option.bind_some, hn]
                exact ih fun o ho => hl o (List.mem_cons_of_mem _ ho)
            rw [lifeOf, if_neg hin]
            exact key _ fun _ h => h
      have hcls : ∀ id k, (Hnd.new d ((s.leases.get d).getD []) s.outbound s.expiring).tunnels.get id = some k → k.isIn = remote id := by
        intro id k hk
        rcases new_get hk with ⟨e, rfl, hm⟩ | ⟨rfl, hm⟩ | ⟨e, rfl, hm⟩
        · rw [hls _ hm]; rfl
        · rw [hro id (.inl hm)]; rfl
        · rw [hro id (.inr ⟨e, hm⟩)]; rfl
      refine ⟨⟨AMap.ok_puts _ AMap.ok_nil, hcls, by simp [Hnd.new], by simp [Hnd.new], by simp [Hnd.new]⟩, ?_⟩
      intro _ _ id hid
      show ((Hnd.new d ((s.leases.get d).getD []) s.outbound s.expiring).tunnels.get id).isSome = _
      rw [Bool.eq_iff_iff]
      simp only [liveB, Bool.or_eq_true, decide_eq_true_eq, ← h.m1, ← h.m2]
      constructor
      · intro hk
        obtain ⟨k, hk⟩ := Option.isSome_iff_exists.mp hk
        rcases new_get hk with ⟨e, rfl, hm⟩ | ⟨rfl, hm⟩ | ⟨e, rfl, hm⟩
        · have := hls _ hm; simp only at this; rw [hid] at this; cases this
        · exact .inl hm
        · exact .inr ⟨e, hm⟩
      · exact new_isSome
  | built i =>
    simp only at hso
    have hl : ∀ id, lifeOf out id (ops ++ [.built i]) = if i = id then some .built else lifeOf out id ops := by
      intro id
      obtain ⟨x, y, h1, h2, h3⟩ := hlife id
      rw [h3, h1]
      simp only [Life.next] at h2
      split at h2
      · rename_i e; rw [if_pos e]; split at h2
        · exact h2.symm
        · cases h2
      · rename_i e; rw [if_neg e]; exact h2.symm
    have hu : lifeOf out i ops = some .unknown := by
      obtain ⟨x, y, h1, h2, h3⟩ := hlife i
      simp only [Life.next, if_true] at h2
      split at h2
      · rename_i e; rw [h1, e]
      · cases h2
    refine ⟨?_, ?_, h.ls, ?_⟩
    · intro id
      rw [hl]
      simp only [step, Sys.built, Sys.broadcast]
      split
      · rename_i hin
        rw [h.m1, hu] at hin; cases hin
      · simp only [List.mem_append, List.mem_singleton]
        by_cases e : i = id
        · simp [e]
        · rw [if_neg e, ← h.m1]
          exact ⟨fun h => h.resolve_right fun h => e h.symm, .inl⟩
    · intro id
      rw [hl]
      simp only [step, Sys.built, Sys.broadcast]
      rw [h.m2]
      split
      · rename_i e; subst e; rw [hu]; simp
      · exact Iff.rfl
    · intro x hx
      simp only [step, Sys.built, Sys.broadcast, List.mem_map] at hx
      obtain ⟨y, hy, rfl⟩ := hx
      refine notify_synced (h.hs y hy) hso ?_
      intro id _
      simp only [liveB, hl, view]
      split <;> simp
  | expiring now i =>
    simp only at hso
    have hl : ∀ id, lifeOf out id (ops ++ [.expiring now i]) = if i = id then some .expiring else lifeOf out id ops := by
      intro id
      obtain ⟨x, y, h1, h2, h3⟩ := hlife id
      rw [h3, h1]
      simp only [Life.next] at h2
      split at h2
      · rename_i e; rw [if_pos e]; split at h2
        · exact h2.symm
        · cases h2
      · rename_i e; rw [if_neg e]; exact h2.symm
    refine ⟨?_, ?_, h.ls, ?_⟩
    · intro id
      rw [hl]
      simp only [step, Sys.expire, Sys.broadcast, List.mem_filter, ne_eq, decide_eq_true_eq]
      rw [h.m1]
      by_cases e : i = id
      · simp [e]
      · rw [if_neg e]; exact ⟨fun h => h.1, fun h => ⟨h, fun x => e x.symm⟩⟩
    · intro id
      rw [hl]
      simp only [step, Sys.expire, Sys.broadcast, List.mem_append, List.mem_singleton, Prod.mk.injEq]
      by_cases e : i = id
      · simp [e]
      · rw [if_neg e, ← h.m2]
        exact ⟨fun ⟨x, hx⟩ => ⟨x, hx.resolve_right fun h => e h.1.symm⟩, fun ⟨x, hx⟩ => ⟨x, .inl hx⟩⟩
    · intro x hx
      simp only [step, Sys.expire, Sys.broadcast, List.mem_map] at hx
      obtain ⟨y, hy, rfl⟩ := hx
      refine notify_synced (h.hs y hy) hso ?_
      intro id _
      simp only [liveB, hl, view]
      split <;> simp
  | expired i =>
    simp only at hso
    have hl : ∀ id, lifeOf out id (ops ++ [.expired i]) = if i = id then some .gone else lifeOf out id ops := by
      intro id
      obtain ⟨x, y, h1, h2, h3⟩ := hlife id
      rw [h3, h1]
      simp only [Life.next] at h2
      split at h2
      · rename_i e; rw [if_pos e]; split at h2
        · exact h2.symm
        · cases h2
      · rename_i e; rw [if_neg e]; exact h2.symm
    have hu : lifeOf out i ops = some .expiring := by
      obtain ⟨x, y, h1, h2, h3⟩ := hlife i
      simp only [Life.next, if_true] at h2
      split at h2
      · rename_i e; rw [h1, e]
      · cases h2
    refine ⟨?_, ?_, h.ls, ?_⟩
    · intro id
      rw [hl]
      simp only [step, Sys.expired, Sys.broadcast]
      rw [h.m1]
      split
      · rename_i e; subst e; rw [hu]; simp
      · exact Iff.rfl
    · intro id
      rw [hl]
      simp only [step, Sys.expired, Sys.broadcast, List.mem_filter, ne_eq, decide_eq_true_eq]
      by_cases e : i = id
      · simp [e]
      · rw [if_neg e, ← h.m2]
        exact ⟨fun ⟨x, hx⟩ => ⟨x, hx.1⟩, fun ⟨x, hx⟩ => ⟨x, hx, fun h => e h.symm⟩⟩
    · intro x hx
      simp only [step, Sys.expired, Sys.broadcast, List.mem_map] at hx
      obtain ⟨y, hy, rfl⟩ := hx
      refine notify_synced (h.hs y hy) hso ?_
      intro id _
      simp only [liveB, hl, view]
      split <;> simp
  | leases now d r =>
    have h := h.same (o := .leases now d r) (fun _ _ => rfl)
    simp only [step, Sys.register]
    cases r with
    | none =>
      split
      · exact h.handles rfl rfl rfl h.hs
      · exact h.handles rfl rfl rfl h.hs
      · rename_i heq; cases heq
    | some l =>
      simp only at hso
      have key : ∀ s' : Sys, s'.outbound = s.outbound → s'.expiring = s.expiring → s'.leases = s.leases → s'.handles = s.handles →
          SInv remote out (ops ++ [.leases now d (some l)]) { s' with leases := s'.leases.put d (((s'.leases.get d).getD [] ++ l).filter fun x => x.2 > now), handles := s'.handles.map fun h => if h.dest = d then h.notify (.inboundBuilt l) else h } := by
        intro s' e1 e2 e3 e4
        refine ⟨by simp only [e1]; exact h.m1, by simp only [e2]; exact h.m2, ?_, ?_⟩
        · intro d' l' x hl' hx
          simp only [e3, AMap.get_put] at hl'
          split at hl'
          · cases hl'
            have hx := (List.mem_filter.mp hx).1
            rcases List.mem_append.mp hx with hx | hx
            · cases hg : s.leases.get d with
              | none => rw [hg] at hx; cases hx
              | some l0 => rw [hg] at hx; exact h.ls d l0 x hg hx
            · exact hso x hx
          · exact h.ls d' l' x hl' hx
        · intro x hx
          simp only [e4, List.mem_map] at hx
          obtain ⟨y, hy, rfl⟩ := hx
          split
          · exact notify_synced (h.hs y hy) hso fun id _ => rfl
          · exact h.hs y hy
      cases hp : s.pending.get d with
      | none => exact key _ rfl rfl rfl rfl
      | some rids => exact key _ rfl rfl rfl rfl
  | serve =>
    have h := h.same (o := .serve) (fun _ _ => rfl)
    simp only [step, Sys.serve]
    split
    · exact h
    · split <;> exact h.handles rfl rfl rfl h.hs
  | poll i now =>
    have h := h.same (o := .poll i now) (fun _ _ => rfl)
    simp only [step]
    split
    · rename_i x hx
      split
      · exact h.handles rfl rfl rfl (set_synced h.hs (poll_synced (h.hs x (List.mem_of_getElem? hx)) _ _) _)
      · exact h
    · exact h
  | path i now r =>
    have h := h.same (o := .path i now r) (fun _ _ => rfl)
    simp only [step]
    split
    · rename_i x hx
      split
      · have e := sent_handles { s with handles := s.handles.set i (x.get now r s.rid).2.1 } x.dest (x.get now r s.rid).2.2
        exact h.handles e.2.1 e.2.2.1 e.2.2.2 (by rw [e.1]; exact set_synced h.hs (get_synced (h.hs x (List.mem_of_getElem? hx)) _ _ _) _)
      · exact h
    · exact h
  | recreate i now r =>
    have h := h.same (o := .recreate i now r) (fun _ _ => rfl)
    simp only [step]
    split
    · rename_i x hx
      split
      · have e := sent_handles { s with handles := s.handles.set i (x.recreate chk now r s.rid).2.1 } x.dest (x.recreate chk now r s.rid).2.2
        exact h.handles e.2.1 e.2.2.1 e.2.2.2 (by rw [e.1]; exact set_synced h.hs (recreate_synced (h.hs x (List.mem_of_getElem? hx)) _ _ _ _) _)
      · exact h
    · exact h
  | drop i =>
    have h := h.same (o := .drop i) (fun _ _ => rfl)
    simp only [step]
    split
    · rename_i x hx
      have hx := h.hs x (List.mem_of_getElem? hx)
      exact h.handles rfl rfl rfl (set_synced h.hs (y := { x with alive := false }) ⟨⟨hx.1.ok, hx.1.cls, hx.1.q, hx.1.pin, hx.1.pout⟩, fun h => by cases h⟩ _)
    · exact h

theorem run_inv {remote : Nat → Bool} {out : List Nat} (chk : Bool) (ops : List Op) (ho : Orderly out ops) (hsep : Separate remote out ops) : SInv remote out ops (run chk (Sys.new out) ops) := by
  induction ops using List.reverseRecOn with
  | nil =>
    refine ⟨fun id => ?_, fun id => ?_, by simp [run, Sys.new], by simp [run, Sys.new]⟩
    · simp only [run, Sys.new, List.mem_eraseDups, lifeOf, List.foldl_nil]; split <;> simp_all
    · simp only [run, Sys.new, lifeOf, List.foldl_nil]; split <;> simp
  | append_singleton ops o ih =>
    rw [run_append]
    exact step_inv chk (ih ho.init hsep.init) ho hsep

/-! ## C51 -/

/-- C51: for every history in which outbound tunnels are announced in order and ids are separate, a path that is handed out by a handle that has just
been polled, and that never missed an event because its queue was full, uses an outbound tunnel that is built and not expired. -/
theorem C51_outbound_partial (remote : Nat → Bool) (out : List Nat) (chk : Bool) (ops : List Op) (h : Nat) (t now : Duration) (r : Rand) (ho : Orderly out ops)
    (hsep : Separate remote out ops) (hq : ∀ x, (run chk (Sys.new out) ops).handles[h]? = some x → x.lost = false) (p : Path)
    (hret : (step chk (run chk (Sys.new out) (ops ++ [.poll h t])) (.path h now r)).1 = .path (some p)) : Live out ops p.outbound := by
  have inv := run_inv chk ops ho hsep
  rw [run_append] at hret
  generalize run chk (Sys.new out) ops = s at *
  simp only [run, step] at hret
  cases hx : s.handles[h]? with
  | none => simp only [hx] at hret; cases hret
  | some x =>
    simp only [hx] at hret
    cases ha : x.alive with
    | false => simp only [ha, hx, Bool.false_eq_true, if_false] at hret; cases hret
    | true =>
      have hlt : h < s.handles.length := (List.getElem?_eq_some_iff.mp hx).1
      simp only [ha, if_true, List.getElem?_set_self hlt] at hret
      split at hret
      · rename_i ha'
        have sx := inv.hs x (List.mem_of_getElem? hx)
        have sy := poll_synced sx t s.answers.get
        obtain ⟨_, l, _, h4⟩ := poll_inv sx.1 t s.answers.get
        have hq' : (x.poll t s.answers.get).2.queue = [] := by
          rcases h4 with ⟨_, h4⟩ | ⟨_, h4, _⟩
          · rw [h4] at ha'; cases ha'
          · exact h4
        generalize (x.poll t s.answers.get).2 = y at *
        simp only [Ret.path.injEq] at hret
        have g := get_inv sy.1 now r { s with handles := s.handles.set h y }.rid
        have hp : (y.get now r { s with handles := s.handles.set h y }.rid).2.1.path = some p := by
          revert hret
          generalize { s with handles := s.handles.set h y }.rid = rid
          unfold Hnd.get Hnd.make
          intro hret
          split
          · rename_i q hq; rw [hq] at hret; simp only at hret; rw [hq]; exact hret
          · rename_i hq
            rw [hq] at hret
            simp only at hret ⊢
            revert hret
            split
            · intro hret; cases hret
            · split
              · intro hret; exact hret
              · split <;> intro hret <;> cases hret
        obtain ⟨o1, o2⟩ := g.1.pout p hp
        have := sy.2 ha' (l.trans (hq x hx)) p.outbound o1
        rw [hq', List.foldl_nil, ← g.2.1, o2] at this
        have this := this.symm
        simp only [liveB, Bool.or_eq_true, decide_eq_true_eq] at this
        exact this
      · cases hret

/-- C51: nothing panics, if ids are separate. -/
theorem C51_no_panic_partial (remote : Nat → Bool) (out : List Nat) (chk : Bool) (ops : List Op) (o : Op) (ho : Orderly out ops) (hsep : Separate remote out ops) :
    (step chk (run chk (Sys.new out) ops) o).1 ≠ .panic := by
  have inv := run_inv chk ops ho hsep
  generalize run chk (Sys.new out) ops = s at *
  cases o <;> simp only [step] <;> (try (intro h; cases h; done))
  · split
    · split <;> (intro h; cases h)
    · intro h; cases h
  · split
    · split <;> (intro h; cases h)
    · intro h; cases h
  · split
    · rename_i x hx
      split
      · have := (recreate_inv (inv.hs x (List.mem_of_getElem? hx)).1 chk (by assumption) (by assumption) s.rid).1
        obtain ⟨v, hv⟩ := Option.isSome_iff_exists.mp this
        intro h
        rw [hv] at h
        cases h
      · intro h; cases h
    · intro h; cases h
  · split <;> (intro h; cases h)

end Emissary.RPath
