import Verif.Props.RoutingPathLease
/-!
# Routing paths: outbound tunnels that are about to expire
-/
namespace Emissary.RPath
open Emissary.I2np (Duration)

/-- It was registered that the tunnel is about to expire, 90 seconds before `e`. -/
def Expiring (ops : List Op) (id : Nat) (e : Duration) : Prop := ∃ t0, Op.expiring t0 id ∈ ops ∧ e = t0 + 90 * 1000000000

/-- When an outbound tunnel is taken to expire. -/
def Kind.outEnd : Kind → Option Duration
  | .expiringOut e => some e
  | .failingOut e => e
  | _ => none

structure EInv (ops : List Op) (s : Hnd) : Prop where
  tun : ∀ id k e, (id, k) ∈ s.tunnels → k.outEnd = some e → Expiring ops id e
  q : ∀ id e, Event.outExpiring id e ∈ s.queue → Expiring ops id e
  ok : s.tunnels.Ok

theorem Expiring.mono {ops : List Op} {o : Op} {i : Nat} {e : Duration} (h : Expiring ops i e) : Expiring (ops ++ [o]) i e := by
  obtain ⟨t0, h1, h2⟩ := h
  exact ⟨t0, List.mem_append_left _ h1, h2⟩

theorem EInv.mono {ops : List Op} {o : Op} {s : Hnd} (h : EInv ops s) : EInv (ops ++ [o]) s :=
  ⟨fun id k e h1 h2 => (h.tun id k e h1 h2).mono, fun id e hl => (h.q id e hl).mono, h.ok⟩

theorem EInv.event {ops : List Op} {s : Hnd} (h : EInv ops s) (now : Duration) {e : Event} (he : ∀ id t, e = .outExpiring id t → Expiring ops id t) :
    EInv ops (s.event now e) := by
  cases e with
  | inboundBuilt l =>
    have key : ∀ s' : Hnd, s'.tunnels = s.tunnels → s'.queue = s.queue →
        EInv ops { s' with tunnels := (s'.tunnels.puts (l.map fun x => (x.1, Kind.inbound x.2))).keep (retained (s'.path.map (·.inbound)) now) } := by
      intro s' e1 e2
      refine ⟨?_, by rw [e2]; exact h.q, AMap.ok_keep (AMap.ok_puts _ (e1 ▸ h.ok)) _⟩
      intro id k e hm hk
      have hm := (List.mem_filter.mp hm).1
      rcases mem_puts _ hm with hm | hm
      · obtain ⟨x, hx, e'⟩ := List.mem_map.mp hm
        cases e'
        cases hk
      · exact h.tun id k e (e1 ▸ hm) hk
    simp only [Hnd.event]
    split
    · split
      · exact key s.drop rfl rfl
      · exact key s rfl rfl
    · exact key s rfl rfl
  | outBuilt i =>
    have key : ∀ s' : Hnd, s'.tunnels = s.tunnels → s'.queue = s.queue → EInv ops { s' with tunnels := s'.tunnels.put i .outbound } := by
      intro s' e1 e2
      refine ⟨?_, by rw [e2]; exact h.q, AMap.ok_put (e1 ▸ h.ok) _ _⟩
      intro id k e hm hk
      rcases mem_put hm with hm | hm
      · cases hm; cases hk
      · exact h.tun id k e (e1 ▸ hm) hk
    simp only [Hnd.event]
    split
    · split
      · exact key s.drop rfl rfl
      · exact key s.drop rfl rfl
      · exact key s rfl rfl
    · exact key s rfl rfl
  | outExpiring i e =>
    have hi := he i e rfl
    have key : ∀ id k e', (id, k) ∈ s.tunnels.put i (.expiringOut e) → k.outEnd = some e' → Expiring ops id e' := by
      intro id k e' hm hk
      rcases mem_put hm with hm | hm
      · cases hm; cases hk; exact hi
      · exact h.tun id k e' hm hk
    simp only [Hnd.event]
    split <;> exact ⟨key, h.q, AMap.ok_put h.ok _ _⟩
  | outExpired i =>
    have key : ∀ id k e', (id, k) ∈ s.tunnels.del i → k.outEnd = some e' → Expiring ops id e' :=
      fun id k e hm hk => h.tun id k e (List.mem_filter.mp hm).1 hk
    simp only [Hnd.event]
    split <;> exact ⟨key, h.q, AMap.ok_del h.ok _⟩

theorem EInv.events {ops : List Op} (now : Duration) (l : List Event) : ∀ {s : Hnd}, EInv ops s → (∀ id t, .outExpiring id t ∈ l → Expiring ops id t) →
    EInv ops (l.foldl (fun s e => s.event now e) s) := by
  induction l with
  | nil => intro s h _; exact h
  | cons e l ih =>
    intro s h hl
    exact ih (h.event now (e := e) (fun id t el => hl id t (el ▸ List.mem_cons_self))) (fun id t hl' => hl id t (List.mem_cons_of_mem _ hl'))

theorem EInv.make {ops : List Op} {s : Hnd} (h : EInv ops s) (now : Duration) (r : Rand) (rid : Option Nat) : EInv ops (s.make now r rid).2.1 := by
  rcases make_cases s now r rid with ⟨i, o, e, k, h1, _⟩ | ⟨q, b, h1⟩ <;> rw [h1] <;> exact ⟨h.tun, h.q, h.ok⟩

theorem failIn_out {ops : List Op} {t : AMap Nat Kind} (i : Nat) (h : ∀ id k e, (id, k) ∈ t → k.outEnd = some e → Expiring ops id e) :
    ∀ id k e, (id, k) ∈ (failIn t i).getD (t.del i) → k.outEnd = some e → Expiring ops id e := by
  intro id k e hm hk
  unfold failIn at hm
  split at hm
  · rcases mem_put hm with hm | hm
    · cases hm; cases hk
    · exact h id k e hm hk
  · rcases mem_put hm with hm | hm
    · cases hm; cases hk
    · exact h id k e hm hk
  · exact h id k e (List.mem_filter.mp hm).1 hk

theorem failOut_out {ops : List Op} {t : AMap Nat Kind} (i : Nat) (h : ∀ id k e, (id, k) ∈ t → k.outEnd = some e → Expiring ops id e) :
    ∀ id k e, (id, k) ∈ (failOut t i).getD (t.del i) → k.outEnd = some e → Expiring ops id e := by
  intro id k e hm hk
  unfold failOut at hm
  split at hm
  · rcases mem_put hm with hm | hm
    · cases hm; cases hk
    · exact h id k e hm hk
  · rename_i he
    rcases mem_put hm with hm | hm
    · cases hm; cases hk; exact h _ _ _ (AMap.get_mem he) rfl
    · exact h id k e hm hk
  · rename_i he
    rcases mem_put hm with hm | hm
    · cases hm; exact h _ _ _ (AMap.get_mem he) hk
    · exact h id k e hm hk
  · exact h id k e (List.mem_filter.mp hm).1 hk

theorem failIn_ok {t : AMap Nat Kind} (i : Nat) (h : t.Ok) : ((failIn t i).getD (t.del i)).Ok := by
  unfold failIn
  split
  · exact AMap.ok_put h _ _
  · exact AMap.ok_put h _ _
  · exact AMap.ok_del h _

theorem failOut_ok {t : AMap Nat Kind} (i : Nat) (h : t.Ok) : ((failOut t i).getD (t.del i)).Ok := by
  unfold failOut
  split
  · exact AMap.ok_put h _ _
  · exact AMap.ok_put h _ _
  · exact AMap.ok_put h _ _
  · exact AMap.ok_del h _

theorem EInv.recreate {ops : List Op} {s : Hnd} (h : EInv ops s) (chk : Bool) (now : Duration) (r : Rand) (rid : Option Nat) : EInv ops (s.recreate chk now r rid).2.1 := by
  unfold Hnd.recreate
  split
  · exact h.make now r rid
  · rename_i p hp
    dsimp only
    have hd : ∀ (t : AMap Nat Kind) i, (∀ id k e, (id, k) ∈ t → k.outEnd = some e → Expiring ops id e) → ∀ id k e, (id, k) ∈ t.del i → k.outEnd = some e → Expiring ops id e :=
      fun t i h id k e hm hk => h id k e (List.mem_filter.mp hm).1 hk
    have h1 := failIn_out p.inbound h.tun
    have o1 := failIn_ok p.inbound h.ok
    split
    · exact ⟨hd _ _ h.tun, h.q, AMap.ok_del h.ok _⟩
    · split
      · exact ⟨hd _ _ h1, h.q, AMap.ok_del o1 _⟩
      · have h2 := failOut_out p.outbound h1
        have o2 := failOut_ok p.outbound o1
        generalize (failOut _ p.outbound).getD _ = t2 at h2 o2 ⊢
        exact EInv.make (s := { s with timer := none, tunnels := t2 }) ⟨h2, h.q, o2⟩ now r rid

theorem EInv.poll {ops : List Op} {s : Hnd} (h : EInv ops s) (now : Duration) (f : Nat → Option Bool) : EInv ops (s.poll now f).2 := by
  unfold Hnd.poll
  split
  · exact ⟨h.tun, h.q, h.ok⟩
  · rename_i s' hs
    obtain ⟨q, rfl⟩ := answer_spec hs
    have h' : EInv ops (Hnd.tick { s with query := q } now) := by
      unfold Hnd.tick
      split
      · split <;> exact ⟨h.tun, h.q, h.ok⟩
      · exact ⟨h.tun, h.q, h.ok⟩
    have e := EInv.events now s.queue h' h.q
    exact ⟨e.tun, by simp, e.ok⟩

structure ESInv (ops : List Op) (s : Sys) : Prop where
  ex : ∀ x ∈ s.expiring, Expiring ops x.1 x.2
  hs : ∀ h ∈ s.handles, EInv ops h

theorem EInv.notify {ops : List Op} {s : Hnd} (h : EInv ops s) {e : Event} (he : ∀ id t, e = .outExpiring id t → Expiring ops id t) : EInv ops (s.notify e) := by
  unfold Hnd.notify
  split
  · split
    · refine ⟨h.tun, ?_, h.ok⟩
      intro id t hl
      rcases List.mem_append.mp hl with hl | hl
      · exact h.q id t hl
      · exact he id t (List.mem_singleton.mp hl).symm
    · exact ⟨h.tun, h.q, h.ok⟩
  · exact h

theorem set_einv {ops : List Op} {l : List Hnd} (h : ∀ x ∈ l, EInv ops x) {y : Hnd} (hy : EInv ops y) (i : Nat) : ∀ x ∈ l.set i y, EInv ops x := by
  intro x hx
  rcases List.mem_or_eq_of_mem_set hx with hx | rfl
  · exact h x hx
  · exact hy

theorem estep_inv {ops : List Op} {o : Op} {s : Sys} (chk : Bool) (h : ESInv ops s) : ESInv (ops ++ [o]) (step chk s o).2 := by
  have h : ESInv (ops ++ [o]) s := ⟨fun x hx => (h.ex x hx).mono, fun x hx => (h.hs x hx).mono⟩
  have bc : ∀ e, (∀ id t, e = .outExpiring id t → Expiring (ops ++ [o]) id t) → ∀ x ∈ s.handles.map (·.notify e), EInv (ops ++ [o]) x := by
    intro e he x hx
    obtain ⟨y, hy, rfl⟩ := List.mem_map.mp hx
    exact (h.hs y hy).notify he
  cases o with
  | subscribe d =>
    refine ⟨h.ex, ?_⟩
    intro x hx
    rcases List.mem_append.mp hx with hx | hx
    · exact h.hs x hx
    · rw [List.mem_singleton.mp hx]
      refine ⟨?_, by simp [Hnd.new], AMap.ok_puts _ AMap.ok_nil⟩
      intro id k e hm hk
      rcases mem_puts _ hm with hm | hm
      · simp only [List.mem_append, List.mem_map, Prod.exists] at hm
        rcases hm with (⟨a, b, h1, h2⟩ | ⟨a, h1, h2⟩) | ⟨a, b, h1, h2⟩
        · cases h2; cases hk
        · cases h2; cases hk
        · cases h2; cases hk; exact h.ex _ h1
      · cases hm
  | built i => exact ⟨h.ex, bc _ (by simp)⟩
  | expiring now i =>
    have hn : Expiring (ops ++ [.expiring now i]) i (now + 3 * outMargin) := ⟨now, by simp, rfl⟩
    refine ⟨?_, bc _ (by rintro id t ⟨⟩; exact hn)⟩
    intro x hx
    rcases List.mem_append.mp hx with hx | hx
    · exact h.ex x hx
    · rw [List.mem_singleton.mp hx]; exact hn
  | expired i => exact ⟨fun x hx => h.ex x (List.mem_filter.mp hx).1, bc _ (by simp)⟩
  | leases now d res =>
    have key : ∀ (l : List Lease), ∀ x ∈ s.handles.map (fun h => if h.dest = d then h.notify (.inboundBuilt l) else h), EInv (ops ++ [.leases now d res]) x := by
      intro l x hx
      obtain ⟨y, hy, rfl⟩ := List.mem_map.mp hx
      split
      · exact (h.hs y hy).notify (by intro id t e; cases e)
      · exact h.hs y hy
    simp only [step, Sys.register]
    cases s.pending.get d <;> cases res
    · exact ⟨h.ex, h.hs⟩
    · exact ⟨h.ex, key _⟩
    · exact ⟨h.ex, h.hs⟩
    · exact ⟨h.ex, key _⟩
  | serve =>
    simp only [step, Sys.serve]
    split
    · exact h
    · split <;> exact ⟨h.ex, h.hs⟩
  | poll i now =>
    simp only [step]
    split
    · rename_i x hx
      split
      · exact ⟨h.ex, set_einv h.hs ((h.hs x (List.mem_of_getElem? hx)).poll _ _) _⟩
      · exact h
    · exact h
  | path i now r =>
    simp only [step]
    split
    · rename_i x hx
      split
      · have hx := h.hs x (List.mem_of_getElem? hx)
        have hg : EInv (ops ++ [.path i now r]) (x.get now r s.rid).2.1 := by
          unfold Hnd.get
          split
          · exact hx
          · exact hx.make _ _ _
        unfold Sys.sent
        split <;> exact ⟨h.ex, set_einv h.hs hg _⟩
      · exact h
    · exact h
  | recreate i now r =>
    simp only [step]
    split
    · rename_i x hx
      split
      · have hg := (h.hs x (List.mem_of_getElem? hx)).recreate chk now r s.rid
        unfold Sys.sent
        split <;> exact ⟨h.ex, set_einv h.hs hg _⟩
      · exact h
    · exact h
  | drop i =>
    simp only [step]
    split
    · rename_i x hx
      have hx := h.hs x (List.mem_of_getElem? hx)
      exact ⟨h.ex, set_einv h.hs (y := { x with alive := false }) ⟨hx.tun, hx.q, hx.ok⟩ _⟩
    · exact h

theorem erun_inv {out : List Nat} (chk : Bool) (ops : List Op) : ESInv ops (run chk (Sys.new out) ops) := by
  induction ops using List.reverseRecOn with
  | nil => exact ⟨by simp [run, Sys.new], by simp [run, Sys.new]⟩
  | append_singleton ops o ih =>
    rw [run_append]
    exact estep_inv chk ih

theorem selectOut_mem {t : AMap Nat Kind} {now : Duration} {r o : Nat} (h : selectOut t now r = some o) :
    ∃ k, (o, k) ∈ t ∧ (k = .outbound ∨ k = .failingOut none ∨ ∃ e, k.outEnd = some e ∧ now + 30 * 1000000000 < e) := by
  unfold selectOut at h
  dsimp only at h
  split at h
  · obtain ⟨⟨a, k⟩, hx, hf⟩ := List.mem_filterMap.mp (pick_mem h)
    cases k <;> simp at hf
    subst hf
    exact ⟨_, hx, .inl rfl⟩
  · split at h
    · obtain ⟨⟨a, k⟩, hx, hf⟩ := List.mem_filterMap.mp (pick_mem h)
      cases k <;> simp at hf
      obtain ⟨h1, rfl⟩ := hf
      exact ⟨_, hx, .inr (.inr ⟨_, rfl, h1⟩)⟩
    · obtain ⟨⟨a, k⟩, hx, hf⟩ := List.mem_filterMap.mp (pick_mem h)
      cases k with
      | failingOut e =>
        cases e with
        | none => simp at hf; subst hf; exact ⟨_, hx, .inr (.inl rfl)⟩
        | some e =>
          simp at hf
          obtain ⟨h1, rfl⟩ := hf
          exact ⟨_, hx, .inr (.inr ⟨_, rfl, h1⟩)⟩
      | _ => simp at hf

theorem less_minute {a t : Nat} (h : a + 30 * 1000000000 < t + 90 * 1000000000) : a < t + 60 * 1000000000 := by omega

/-- C51: when a path is chosen, its outbound tunnel is not one the handle knows to be about to expire, or the expiration was announced less than a minute
ago, so that the tunnel lasts at least 30 seconds more. -/
theorem C51_expiring_partial (out : List Nat) (chk : Bool) (ops : List Op) {x : Hnd} (hx : x ∈ (run chk (Sys.new out) ops).handles) (hp : x.path = none)
    (now : Duration) (r : Rand) (rid : Option Nat) {p : Path} (h : (x.get now r rid).1 = some p) :
    x.tunnels.get p.outbound = some .outbound ∨ x.tunnels.get p.outbound = some (.failingOut none) ∨
      ∃ t0, .expiring t0 p.outbound ∈ ops ∧ now < t0 + 60 * 1000000000 := by
  have inv := (erun_inv (out := out) chk ops).hs x hx
  simp only [Hnd.get, hp] at h
  unfold Hnd.make at h
  split at h
  · cases h
  · rename_i o ho
    have hpo : p.outbound = o := by
      split at h
      · cases h; rfl
      · split at h <;> cases h
    obtain ⟨k, h1, h2⟩ := selectOut_mem ho
    rw [hpo]
    have hg := AMap.mem_get inv.ok h1
    rcases h2 with rfl | rfl | ⟨e, h2, h3⟩
    · exact .inl hg
    · exact .inr (.inl hg)
    · obtain ⟨t0, h4, rfl⟩ := inv.tun _ _ _ h1 h2
      exact .inr (.inr ⟨t0, h4, less_minute h3⟩)

/-- A tunnel that was announced to expire a second ago is used, as there is no other. -/
example : let s := run true (Sys.new [7]) [.leases 0 3 (some [(5, 1000 * 1000000000)]), .subscribe 3, .expiring 0 7, .poll 0 0]
    s.handles.map (fun x => (x.path, (x.get 1000000000 ⟨0, 0⟩ none).1)) = [(none, some ⟨5, 7⟩)] := by decide +kernel

/-- C126: when a handle takes note of new leases it forgets all leases that have expired, faulty or not, except the one of the path in use. -/
theorem C126_handle_fresh (s : Hnd) (now : Duration) (l : List Lease) {id : Nat} {k : Kind} {e : Duration} (h : (s.event now (.inboundBuilt l)).tunnels.get id = some k)
    (hk : k.leaseEnd = some e) : now < e ∨ ∃ p, s.path = some p ∧ p.inbound = id := by
  have key : ∀ (t : AMap Nat Kind) (c : Option Nat), AMap.get (t.keep (retained c now)) id = some k → now < e ∨ c = some id := by
    intro t c hg
    have := (List.mem_filter.mp (AMap.get_mem hg)).2
    cases k <;> simp only [Kind.leaseEnd, Option.some.injEq] at hk
    all_goals first
      | cases hk; done
      | (subst hk
         simp only [retained, Bool.or_eq_true, decide_eq_true_eq] at this
         exact this.symm)
  simp only [Hnd.event] at h
  cases hp : s.path with
  | none =>
    simp only [hp] at h
    rcases key _ _ h with h | h
    · exact .inl h
    · cases h
  | some p =>
    simp only [hp] at h
    split at h
    · rcases key _ _ h with h | h
      · exact .inl h
      · cases h
    · rcases key _ _ h with h | h
      · exact .inl h
      · rw [hp] at h
        exact .inr ⟨p, rfl, by cases h; rfl⟩

/-- A lease that has expired is forgotten when another comes. -/
example : let s := run true (Sys.new [7]) [.leases 0 3 (some [(5, 10)]), .subscribe 3, .leases 20 3 (some [(6, 30)]), .poll 0 20]
    s.handles.map (fun x => (x.tunnels.get 5, x.tunnels.get 6)) = [(none, some (.inbound 30))] := by decide +kernel

end Emissary.RPath
