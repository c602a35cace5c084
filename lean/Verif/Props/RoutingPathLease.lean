import Verif.Props.RoutingPathRun
/-!
# Routing paths: leases, faulty tunnels, unreachable remotes
-/
namespace Emissary.RPath
open Emissary.I2np (Duration)

/-! ## C51: leases -/

/-- The remote `d` has a lease with this tunnel id and expiration. -/
def Registered (ops : List Op) (d i : Nat) (e : Duration) : Prop := ∃ now l, Op.leases now d (some l) ∈ ops ∧ (i, e) ∈ l

/-- Every time an owner asked for a new path it got one. -/
def NoDeadEnd (chk : Bool) (s : Sys) (ops : List Op) : Prop :=
  ∀ pre h now r post, ops = pre ++ .recreate h now r :: post →
    (step chk (run chk s pre) (.recreate h now r)).1 ≠ .path none ∧ (step chk (run chk s pre) (.recreate h now r)).1 ≠ .panic

structure LInv (ops : List Op) (s : Hnd) : Prop where
  tun : ∀ id k e, (id, k) ∈ s.tunnels → k.leaseEnd = some e → Registered ops s.dest id e
  q : ∀ l, Event.inboundBuilt l ∈ s.queue → ∀ x ∈ l, Registered ops s.dest x.1 x.2
  tm : ∀ p, s.path = some p → ∃ e, s.timer = some (e - inMargin) ∧ Registered ops s.dest p.inbound e

theorem Registered.mono {ops : List Op} {o : Op} {d i : Nat} {e : Duration} (h : Registered ops d i e) : Registered (ops ++ [o]) d i e := by
  obtain ⟨now, l, h1, h2⟩ := h
  exact ⟨now, l, List.mem_append_left _ h1, h2⟩

theorem LInv.mono {ops : List Op} {o : Op} {s : Hnd} (h : LInv ops s) : LInv (ops ++ [o]) s :=
  ⟨fun id k e h1 h2 => (h.tun id k e h1 h2).mono, fun l hl x hx => (h.q l hl x hx).mono, fun p hp => (h.tm p hp).imp fun _ h => ⟨h.1, h.2.mono⟩⟩

theorem mem_put {t : AMap Nat Kind} {i : Nat} {v : Kind} {x : Nat × Kind} (h : x ∈ t.put i v) : x = (i, v) ∨ x ∈ t := by
  rcases List.mem_cons.mp h with h | h
  · exact .inl h
  · exact .inr (List.mem_filter.mp h).1

theorem mem_puts (l : List (Nat × Kind)) {x : Nat × Kind} : ∀ {t : AMap Nat Kind}, x ∈ t.puts l → x ∈ l ∨ x ∈ t := by
  induction l with
  | nil => intro t h; exact .inr h
  | cons y l ih =>
    intro t h
    rcases ih h with h | h
    · exact .inl (List.mem_cons_of_mem _ h)
    · rcases mem_put h with h | h
      · exact .inl (by rw [h]; exact List.mem_cons_self)
      · exact .inr h

theorem LInv.drop {ops : List Op} {s : Hnd} (h : LInv ops s) : LInv ops s.drop := ⟨h.tun, h.q, by simp [Hnd.drop]⟩

theorem LInv.event {ops : List Op} {s : Hnd} (h : LInv ops s) (now : Duration) {e : Event} (he : ∀ l, e = .inboundBuilt l → ∀ x ∈ l, Registered ops s.dest x.1 x.2) :
    LInv ops (s.event now e) := by
  cases e with
  | inboundBuilt l =>
    have hl := he l rfl
    have key : ∀ s' : Hnd, LInv ops s' → s'.dest = s.dest →
        LInv ops { s' with tunnels := (s'.tunnels.puts (l.map fun x => (x.1, Kind.inbound x.2))).keep (retained (s'.path.map (·.inbound)) now) } := by
      intro s' h' hd
      refine ⟨?_, h'.q, h'.tm⟩
      intro id k e hm hk
      have hm := (List.mem_filter.mp hm).1
      rcases mem_puts _ hm with hm | hm
      · obtain ⟨x, hx, e'⟩ := List.mem_map.mp hm
        cases e'
        cases hk
        rw [hd]; exact hl x hx
      · exact h'.tun id k e hm hk
    simp only [Hnd.event]
    cases hp : s.path with
    | none => have := key s h rfl; simpa [hp] using this
    | some p =>
      simp only
      split
      · exact key s.drop h.drop rfl
      · exact key s h rfl
  | outBuilt i =>
    have key : ∀ s' : Hnd, LInv ops s' → LInv ops { s' with tunnels := s'.tunnels.put i .outbound } := by
      intro s' h'
      refine ⟨?_, h'.q, h'.tm⟩
      intro id k e hm hk
      rcases mem_put hm with hm | hm
      · cases hm; cases hk
      · exact h'.tun id k e hm hk
    simp only [Hnd.event]
    cases hp : s.path with
    | none => have := key s h; simpa [hp] using this
    | some p =>
      simp only
      split
      · exact key s.drop h.drop
      · exact key s.drop h.drop
      · exact key s h
  | outExpiring i e =>
    have key : LInv ops { s with tunnels := s.tunnels.put i (.expiringOut e) } := by
      refine ⟨?_, h.q, h.tm⟩
      intro id k e hm hk
      rcases mem_put hm with hm | hm
      · cases hm; cases hk
      · exact h.tun id k e hm hk
    simp only [Hnd.event]
    split
    · exact key.drop
    · exact key
  | outExpired i =>
    have key : LInv ops { s with tunnels := s.tunnels.del i } :=
      ⟨fun id k e hm hk => h.tun id k e (List.mem_filter.mp hm).1 hk, h.q, h.tm⟩
    simp only [Hnd.event]
    split
    · exact key.drop
    · exact key

theorem event_dest (s : Hnd) (now : Duration) (e : Event) : (s.event now e).dest = s.dest := by
  cases e <;> simp only [Hnd.event]
  · split
    · split <;> rfl
    · rfl
  · split
    · split <;> rfl
    · rfl
  · split <;> rfl
  · split <;> rfl

theorem LInv.events {ops : List Op} (now : Duration) (l : List Event) : ∀ {s : Hnd}, LInv ops s → (∀ l', .inboundBuilt l' ∈ l → ∀ x ∈ l', Registered ops s.dest x.1 x.2) →
    LInv ops (l.foldl (fun s e => s.event now e) s) ∧ (l.foldl (fun s e => s.event now e) s).dest = s.dest := by
  induction l with
  | nil => intro s h _; exact ⟨h, rfl⟩
  | cons e l ih =>
    intro s h hl
    have h1 := h.event now (e := e) (fun l' el => hl l' (el ▸ List.mem_cons_self))
    have hd := event_dest s now e
    have := ih h1 (fun l' hl' => by rw [hd]; exact hl l' (List.mem_cons_of_mem _ hl'))
    exact ⟨this.1, this.2.trans hd⟩

theorem selectIn_mem {t : AMap Nat Kind} {now : Duration} {r i : Nat} {e : Duration} (h : selectIn t now r = some (i, e)) :
    ∃ k, (i, k) ∈ t ∧ k.leaseEnd = some e ∧ now + inMargin < e := by
  unfold selectIn at h
  dsimp only at h
  split at h
  · have := pick_mem h
    obtain ⟨x, hx, hf⟩ := List.mem_filterMap.mp this
    obtain ⟨a, k⟩ := x
    cases k <;> simp at hf
    obtain ⟨h1, rfl, rfl⟩ := hf
    exact ⟨_, hx, rfl, h1⟩
  · have := pick_mem h
    obtain ⟨x, hx, hf⟩ := List.mem_filterMap.mp this
    obtain ⟨a, k⟩ := x
    cases k <;> simp at hf
    obtain ⟨h1, rfl, rfl⟩ := hf
    exact ⟨_, hx, rfl, h1⟩

/-- What making a path does: it succeeds, or the path, the timer and the tunnels are as before. -/
theorem make_cases (s : Hnd) (now : Duration) (r : Rand) (rid : Option Nat) :
    (∃ i o e k, s.make now r rid = (some ⟨i, o⟩, { s with timer := some (e - inMargin), path := some ⟨i, o⟩ }, false) ∧ (i, k) ∈ s.tunnels ∧ k.leaseEnd = some e ∧ now + inMargin < e) ∨
    ∃ q b, s.make now r rid = (none, { s with query := q }, b) := by
  unfold Hnd.make
  split
  · exact .inr ⟨s.query, _, rfl⟩
  · split
    · rename_i i e he
      obtain ⟨k, h1, h2, h3⟩ := selectIn_mem he
      exact .inl ⟨_, _, _, _, rfl, h1, h2, h3⟩
    · split
      · exact .inr ⟨_, _, rfl⟩
      · exact .inr ⟨s.query, _, rfl⟩

theorem LInv.make {ops : List Op} {s : Hnd} (ht : ∀ id k e, (id, k) ∈ s.tunnels → k.leaseEnd = some e → Registered ops s.dest id e)
    (hq : ∀ l, Event.inboundBuilt l ∈ s.queue → ∀ x ∈ l, Registered ops s.dest x.1 x.2) (now : Duration) (r : Rand) (rid : Option Nat)
    (hc : (s.make now r rid).1 ≠ none ∨ LInv ops s) : LInv ops (s.make now r rid).2.1 := by
  rcases make_cases s now r rid with ⟨i, o, e, k, h, h1, h2, h3⟩ | ⟨q, b, h⟩
  · rw [h]
    refine ⟨ht, hq, ?_⟩
    intro p hp
    cases hp
    exact ⟨e, rfl, ht _ _ _ h1 h2⟩
  · rw [h] at hc ⊢
    rcases hc with hc | hc
    · exact absurd rfl hc
    · exact ⟨hc.tun, hc.q, hc.tm⟩

theorem failIn_mem {t t' : AMap Nat Kind} {i : Nat} (h : failIn t i = some t') {id : Nat} {k : Kind} {e : Duration} (hm : (id, k) ∈ t') (hk : k.leaseEnd = some e) :
    ∃ k, (id, k) ∈ t ∧ k.leaseEnd = some e := by
  unfold failIn at h
  split at h
  · rename_i e' he
    cases h
    rcases mem_put hm with hm | hm
    · cases hm; cases hk; exact ⟨_, AMap.get_mem he, rfl⟩
    · exact ⟨k, hm, hk⟩
  · rename_i e' he
    cases h
    rcases mem_put hm with hm | hm
    · cases hm; cases hk; exact ⟨_, AMap.get_mem he, rfl⟩
    · exact ⟨k, hm, hk⟩
  · cases h

theorem failOut_mem {t t' : AMap Nat Kind} {i : Nat} (h : failOut t i = some t') {id : Nat} {k : Kind} {e : Duration} (hm : (id, k) ∈ t') (hk : k.leaseEnd = some e) :
    (id, k) ∈ t := by
  unfold failOut at h
  split at h
  all_goals first
    | (cases h
       rcases mem_put hm with hm | hm
       · cases hm; cases hk
       · exact hm)
    | cases h

theorem LInv.recreate {ops : List Op} {s : Hnd} (h : LInv ops s) (chk : Bool) (now : Duration) (r : Rand) (rid : Option Nat)
    (hc : (s.recreate chk now r rid).1 ≠ some none ∧ (s.recreate chk now r rid).1 ≠ none) : LInv ops (s.recreate chk now r rid).2.1 := by
  revert hc
  unfold Hnd.recreate
  split
  · exact fun _ => LInv.make h.tun h.q now r rid (.inr h)
  · rename_i p hp
    dsimp only
    split
    · intro hc; exact absurd rfl hc.2
    · split
      · intro hc; exact absurd rfl hc.2
      · intro hc
        refine LInv.make ?_ ?_ now r rid (.inl ?_)
        rotate_left
        · exact h.q
        · intro e; exact hc.1 (congrArg some e)
        simp only
        have h1 : ∀ id k e, (id, k) ∈ (failIn s.tunnels p.inbound).getD (s.tunnels.del p.inbound) → k.leaseEnd = some e → Registered ops s.dest id e := by
          intro id k e hm hk
          cases hf : failIn s.tunnels p.inbound with
          | none => rw [hf] at hm; exact h.tun id k e (List.mem_filter.mp hm).1 hk
          | some t1 =>
            rw [hf] at hm
            obtain ⟨k', h1, h2⟩ := failIn_mem hf hm hk
            exact h.tun id k' e h1 h2
        intro id k e hm hk
        generalize (failIn s.tunnels p.inbound).getD (s.tunnels.del p.inbound) = t1 at hm h1
        cases hf : failOut t1 p.outbound with
        | none => rw [hf] at hm; exact h1 id k e (List.mem_filter.mp hm).1 hk
        | some t2 => rw [hf] at hm; exact h1 id k e (failOut_mem hf hm hk) hk

theorem LInv.tick {ops : List Op} {s : Hnd} (h : LInv ops s) (now : Duration) : LInv ops (s.tick now) := by
  unfold Hnd.tick
  split
  · split
    · exact h.drop
    · exact h
  · exact h

theorem tick_dest (s : Hnd) (now : Duration) : (s.tick now).dest = s.dest ∧ (s.tick now).queue = s.queue := by
  unfold Hnd.tick
  split
  · split <;> exact ⟨rfl, rfl⟩
  · exact ⟨rfl, rfl⟩

theorem LInv.poll {ops : List Op} {s : Hnd} (h : LInv ops s) (now : Duration) (f : Nat → Option Bool) : LInv ops (s.poll now f).2 := by
  unfold Hnd.poll
  split
  · exact ⟨h.tun, h.q, h.tm⟩
  · rename_i s' hs
    obtain ⟨q, rfl⟩ := answer_spec hs
    have h' : LInv ops { s with query := q } := ⟨h.tun, h.q, h.tm⟩
    have e := LInv.events now s.queue (h'.tick now) (by rw [(tick_dest _ now).1]; exact h.q)
    exact ⟨e.1.tun, by simp, e.1.tm⟩

structure LSInv (ops : List Op) (s : Sys) : Prop where
  ls : ∀ d l x, s.leases.get d = some l → x ∈ l → Registered ops d x.1 x.2
  hs : ∀ h ∈ s.handles, LInv ops h

theorem LSInv.handles {ops : List Op} {s s' : Sys} (h : LSInv ops s) (h3 : s'.leases = s.leases) (h4 : ∀ x ∈ s'.handles, LInv ops x) : LSInv ops s' :=
  ⟨by rw [h3]; exact h.ls, h4⟩

theorem LInv.notify {ops : List Op} {s : Hnd} (h : LInv ops s) {e : Event} (he : ∀ l, e = .inboundBuilt l → ∀ x ∈ l, Registered ops s.dest x.1 x.2) : LInv ops (s.notify e) := by
  unfold Hnd.notify
  split
  · split
    · refine ⟨h.tun, ?_, h.tm⟩
      intro l hl x hx
      rcases List.mem_append.mp hl with hl | hl
      · exact h.q l hl x hx
      · exact he l (List.mem_singleton.mp hl).symm x hx
    · exact ⟨h.tun, h.q, h.tm⟩
  · exact h

theorem set_linv {ops : List Op} {l : List Hnd} (h : ∀ x ∈ l, LInv ops x) {y : Hnd} (hy : LInv ops y) (i : Nat) : ∀ x ∈ l.set i y, LInv ops x := by
  intro x hx
  rcases List.mem_or_eq_of_mem_set hx with hx | rfl
  · exact h x hx
  · exact hy

theorem lstep_inv {ops : List Op} {o : Op} {s : Sys} (chk : Bool) (h : LSInv ops s) (hne : ∀ i now r, o = .recreate i now r → (step chk s o).1 ≠ .path none ∧ (step chk s o).1 ≠ .panic) :
    LSInv (ops ++ [o]) (step chk s o).2 := by
  have h : LSInv (ops ++ [o]) s := ⟨fun d l x h1 h2 => (h.ls d l x h1 h2).mono, fun x hx => (h.hs x hx).mono⟩
  have bc : ∀ e, (∀ l, e ≠ .inboundBuilt l) → ∀ x ∈ s.handles.map (·.notify e), LInv (ops ++ [o]) x := by
    intro e he x hx
    obtain ⟨y, hy, rfl⟩ := List.mem_map.mp hx
    exact (h.hs y hy).notify fun l hl => absurd hl (he l)
  cases o with
  | subscribe d =>
    refine h.handles rfl ?_
    intro x hx
    rcases List.mem_append.mp hx with hx | hx
    · exact h.hs x hx
    · rw [List.mem_singleton.mp hx]
      refine ⟨?_, by simp [Hnd.new], by simp [Hnd.new]⟩
      intro id k e hm hk
      rcases mem_puts _ hm with hm | hm
      · simp only [List.mem_append, List.mem_map, Prod.exists] at hm
        rcases hm with (⟨a, b, h1, h2⟩ | ⟨a, h1, h2⟩) | ⟨a, b, h1, h2⟩
        · cases h2
          cases hk
          cases hl : s.leases.get d with
          | none => rw [hl] at h1; cases h1
          | some l => rw [hl] at h1; exact h.ls d l (_, _) hl h1
        · cases h2; cases hk
        · cases h2; cases hk
      · cases hm
  | built i => exact h.handles rfl (bc _ (by simp))
  | expiring now i => exact h.handles rfl (bc _ (by simp))
  | expired i => exact h.handles rfl (bc _ (by simp))
  | leases now d r =>
    simp only [step, Sys.register]
    cases r with
    | none =>
      split
      · exact h.handles rfl h.hs
      · exact h.handles rfl h.hs
      · rename_i heq; cases heq
    | some l =>
      have hreg : ∀ x ∈ l, Registered (ops ++ [.leases now d (some l)]) d x.1 x.2 := fun x hx => ⟨now, l, by simp, hx⟩
      have key : ∀ s' : Sys, s'.leases = s.leases → s'.handles = s.handles →
          LSInv (ops ++ [.leases now d (some l)]) { s' with leases := s'.leases.put d (((s'.leases.get d).getD [] ++ l).filter fun x => x.2 > now), handles := s'.handles.map fun h => if h.dest = d then h.notify (.inboundBuilt l) else h } := by
        intro s' e3 e4
        refine ⟨?_, ?_⟩
        · intro d' l' x hl' hx
          simp only [e3, AMap.get_put] at hl'
          split at hl'
          · rename_i hd
            cases hl'
            rw [hd]
            have hx := (List.mem_filter.mp hx).1
            rcases List.mem_append.mp hx with hx | hx
            · cases hg : s.leases.get d with
              | none => rw [hg] at hx; cases hx
              | some l0 => rw [hg] at hx; exact h.ls d l0 x hg hx
            · exact hreg x hx
          · exact h.ls d' l' x hl' hx
        · intro x hx
          simp only [e4, List.mem_map] at hx
          obtain ⟨y, hy, rfl⟩ := hx
          split
          · rename_i hd
            refine (h.hs y hy).notify ?_
            intro l' hl' x hx
            cases hl'
            rw [hd]; exact hreg x hx
          · exact h.hs y hy
      cases hp : s.pending.get d with
      | none => exact key _ rfl rfl
      | some rids => exact key _ rfl rfl
  | serve =>
    simp only [step, Sys.serve]
    split
    · exact h
    · split <;> exact h.handles rfl h.hs
  | poll i now =>
    simp only [step]
    split
    · rename_i x hx
      split
      · exact h.handles rfl (set_linv h.hs ((h.hs x (List.mem_of_getElem? hx)).poll _ _) _)
      · exact h
    · exact h
  | path i now r =>
    simp only [step]
    split
    · rename_i x hx
      split
      · have e := sent_handles { s with handles := s.handles.set i (x.get now r s.rid).2.1 } x.dest (x.get now r s.rid).2.2
        refine h.handles e.2.2.2 ?_
        rw [e.1]
        refine set_linv h.hs ?_ _
        have hx := h.hs x (List.mem_of_getElem? hx)
        unfold Hnd.get
        split
        · exact hx
        · exact LInv.make hx.tun hx.q _ _ _ (.inr hx)
      · exact h
    · exact h
  | recreate i now r =>
    have hne := hne i now r rfl
    revert hne
    simp only [step]
    split
    · rename_i x hx
      split
      · intro hne
        have e := sent_handles { s with handles := s.handles.set i (x.recreate chk now r s.rid).2.1 } x.dest (x.recreate chk now r s.rid).2.2
        refine h.handles e.2.2.2 ?_
        rw [e.1]
        refine set_linv h.hs ((h.hs x (List.mem_of_getElem? hx)).recreate chk now r s.rid ⟨?_, ?_⟩) _
        · intro h; simp only [h, Ret.ofMade] at hne; exact hne.1 rfl
        · intro h; simp only [h, Ret.ofMade] at hne; exact hne.2 rfl
      · exact fun _ => h
    · exact fun _ => h
  | drop i =>
    simp only [step]
    split
    · rename_i x hx
      have hx := h.hs x (List.mem_of_getElem? hx)
      exact h.handles rfl (set_linv h.hs (y := { x with alive := false }) ⟨hx.tun, hx.q, hx.tm⟩ _)
    · exact h

theorem lrun_inv {out : List Nat} (chk : Bool) (ops : List Op) (hn : NoDeadEnd chk (Sys.new out) ops) : LSInv ops (run chk (Sys.new out) ops) := by
  induction ops using List.reverseRecOn with
  | nil => exact ⟨by simp [run, Sys.new], by simp [run, Sys.new]⟩
  | append_singleton ops o ih =>
    rw [run_append]
    refine lstep_inv chk (ih ?_) ?_
    · intro pre h now r post e
      exact hn pre h now r (post ++ [o]) (by rw [e]; simp)
    · intro i now r e
      subst e
      exact hn ops i now r [] rfl

theorem events_path (now : Duration) (l : List Event) : ∀ s : Hnd,
    (l.foldl (fun s e => s.event now e) s).path = none ∨ (l.foldl (fun s e => s.event now e) s).path = s.path ∧ (l.foldl (fun s e => s.event now e) s).timer = s.timer := by
  induction l with
  | nil => intro s; exact .inr ⟨rfl, rfl⟩
  | cons e l ih =>
    intro s
    simp only [List.foldl_cons]
    have : (s.event now e).path = none ∨ (s.event now e).path = s.path ∧ (s.event now e).timer = s.timer := by
      cases e <;> simp only [Hnd.event]
      · split
        · split
          · exact .inl rfl
          · exact .inr ⟨rfl, rfl⟩
        · exact .inr ⟨rfl, rfl⟩
      · split
        · split
          · exact .inl rfl
          · exact .inl rfl
          · exact .inr ⟨rfl, rfl⟩
        · exact .inr ⟨rfl, rfl⟩
      · split
        · exact .inl rfl
        · exact .inr ⟨rfl, rfl⟩
      · split
        · exact .inl rfl
        · exact .inr ⟨rfl, rfl⟩
    rcases ih (s.event now e) with h | ⟨h1, h2⟩
    · exact .inl h
    · rcases this with h | ⟨h3, h4⟩
      · exact .inl (h1.trans h)
      · exact .inr ⟨h1.trans h3, h2.trans h4⟩

/-- A path that is left after polling was not due to be replaced. -/
theorem poll_path {s : Hnd} {now : Duration} {f : Nat → Option Bool} {p : Path} {t : Duration} (ha : (s.poll now f).2.alive = true)
    (h : (s.poll now f).2.path = some p) (ht : (s.poll now f).2.timer = some t) : now < t := by
  unfold Hnd.poll at h ht ha
  split at h
  · rename_i hs; simp only [hs] at ha; cases ha
  · rename_i s' hs
    simp only [hs] at h ht
    rcases events_path now s'.queue (s'.tick now) with e | ⟨e1, e2⟩
    · rw [e] at h; cases h
    · rw [e1] at h
      rw [e2] at ht
      unfold Hnd.tick at h ht
      split at h
      · rename_i t' ht'
        split at h
        · cases h
        · rename_i hlt
          simp only [ht', if_neg hlt] at ht
          cases ht
          exact Nat.lt_of_not_le hlt
      · rename_i ht'; simp only [ht'] at ht; cases ht

/-- C51: for every history in which a new path could be made whenever an owner asked for one, a path that is handed out by a handle that has just been
polled goes to a lease of the remote, and the lease had more than 30 seconds left when the handle was polled (if that was before the request). -/
theorem C51_lease_partial (out : List Nat) (chk : Bool) (ops : List Op) (h : Nat) (t now : Duration) (htn : t ≤ now) (r : Rand) (hn : NoDeadEnd chk (Sys.new out) ops) (p : Path)
    (hret : (step chk (run chk (Sys.new out) (ops ++ [.poll h t])) (.path h now r)).1 = .path (some p)) :
    ∃ x e, (run chk (Sys.new out) ops).handles[h]? = some x ∧ Registered ops x.dest p.inbound e ∧ t + 30 * 1000000000 < e := by
  have inv := lrun_inv chk ops hn
  rw [run_append] at hret
  generalize run chk (Sys.new out) ops = s at *
  simp only [run, step] at hret
  cases hx : s.handles[h]? with
  | none => simp only [hx] at hret; cases hret
  | some x =>
    simp only [hx] at hret
    cases ha : x.alive with
    | false => simp only [ha, hx, Bool.false_eq_true, if_false] at hret; cases hret
    | true =>
      have hlt : h < s.handles.length := (List.getElem?_eq_some_iff.mp hx).1
      simp only [ha, if_true, List.getElem?_set_self hlt] at hret
      split at hret
      · rename_i ha'
        have sx := inv.hs x (List.mem_of_getElem? hx)
        have sy := sx.poll t s.answers.get
        have hd : (x.poll t s.answers.get).2.dest = x.dest := by
          unfold Hnd.poll
          split
          · rfl
          · rename_i s' hs
            obtain ⟨q, rfl⟩ := answer_spec hs
            have h' : LInv ops { x with query := q } := ⟨sx.tun, sx.q, sx.tm⟩
            have e := LInv.events t x.queue (h'.tick t) (by rw [(tick_dest _ t).1]; exact sx.q)
            exact e.2.trans (tick_dest _ t).1
        have hpp := fun q tt => poll_path (s := x) (now := t) (f := s.answers.get) (p := q) (t := tt) ha'
        generalize (x.poll t s.answers.get).2 = y at *
        simp only [Ret.path.injEq] at hret
        generalize { s with handles := s.handles.set h y }.rid = rid at hret
        refine ⟨x, ?_⟩
        rw [← hd]
        unfold Hnd.get at hret
        split at hret
        · rename_i q hq
          simp only [Option.some.injEq] at hret
          subst hret
          obtain ⟨e, h1, h2⟩ := sy.tm _ hq
          refine ⟨e, rfl, h2, ?_⟩
          have := hpp _ _ hq h1
          simp only [inMargin] at this
          have hdur : ∀ a b : Nat, a < b - 30 * 1000000000 → a + 30 * 1000000000 < b := by intro a b; omega
          exact hdur _ _ this
        · rcases make_cases y now r rid with ⟨i, o, e, k, hm, h1, h2, h3⟩ | ⟨q, b, hm⟩
          · rw [hm] at hret
            simp only [Option.some.injEq] at hret
            subst hret
            refine ⟨e, rfl, sy.tun _ _ _ h1 h2, ?_⟩
            exact Nat.lt_of_le_of_lt (Nat.add_le_add_right htn _) h3
          · rw [hm] at hret; cases hret
      · cases hret

/-! ## C51: violations -/

/-- C51 violated: if an owner asks for a new path and none can be made, the old path stays and nothing will replace it when its lease expires: at any
time later it is handed out again, and polling the handle does not change that. -/
theorem C51_dead_end_violated {remote : Nat → Bool} {s s' : Hnd} (hs : HInv remote s) {p : Path} (hp : s.path = some p) (chk : Bool) (now : Duration) (r : Rand) (rid : Option Nat) {b : Bool}
    (h : s.recreate chk now r rid = (some none, s', b)) :
    (∀ now' r' rid', (s'.get now' r' rid').1 = some p ∧ (s'.get now' r' rid').2.1 = s') ∧
      ∀ now' f, (s'.poll now' f).1 = false → s'.queue = [] → (s'.poll now' f).2.path = some p ∧ (s'.poll now' f).2.timer = none := by
  obtain ⟨e, x, k, _, _, _, _, _, hr⟩ := recreate_eq hs chk now r rid hp
  rw [hr] at h
  have h' : s'.path = some p ∧ s'.timer = none := by
    rcases make_cases (faulty s p e x) now r rid with ⟨i, o, e', k', hm, _⟩ | ⟨q, b', hm⟩
    · rw [hm] at h; simp at h
    · rw [hm] at h
      simp only [Prod.mk.injEq] at h
      rw [← h.2.1]
      exact ⟨hp, rfl⟩
  refine ⟨?_, ?_⟩
  · intro now' r' rid'
    simp [Hnd.get, h'.1]
  · intro now' f hd hq
    unfold Hnd.poll at hd ⊢
    split
    · rename_i e; rw [e] at hd; cases hd
    · rename_i y hy
      obtain ⟨q, rfl⟩ := answer_spec hy
      simp only [hq, List.foldl_nil, Hnd.tick, h'.2, h'.1]
      exact ⟨trivial, trivial⟩

/-- A second, in nanoseconds. -/
def sec : Duration := 1000000000

/-- A history with a dead end: the only lease expires at 100 s, the owner gets a path at 10 s and asks for another one at 70 s. -/
def deadEnd : List Op := [.leases 0 1 (some [(5, 100 * sec)]), .subscribe 1, .path 0 (10 * sec) ⟨0, 0⟩, .recreate 0 (70 * sec) ⟨0, 0⟩]

/-- C51 violated, an example: hours after the lease has expired the path is still handed out. -/
theorem C51_expired_lease_violated (chk : Bool) : Orderly [7] deadEnd ∧ Separate (· == 5) [7] deadEnd ∧
    (step chk (run chk (Sys.new [7]) (deadEnd ++ [.poll 0 (9999 * sec)])) (.path 0 (9999 * sec) ⟨0, 0⟩)).1 = .path (some ⟨5, 7⟩) := by
  refine ⟨?_, ?_, ?_⟩
  · intro id; rfl
  · refine ⟨by decide, ?_⟩
    intro o ho
    simp only [deadEnd, List.mem_cons, List.not_mem_nil, or_false] at ho
    rcases ho with rfl | rfl | rfl | rfl <;> simp
  · cases chk <;> decide +kernel

/-- C51 violated: a remote that publishes a lease with the id of the outbound tunnel of the path makes the handle forget that tunnel; the next request
for a new path panics (in builds with debug assertions). -/
theorem C51_collision_violated {remote : Nat → Bool} {s : Hnd} (hs : HInv remote s) {p : Path} (hp : s.path = some p) {e0 : Duration} (hi : s.tunnels.get p.inbound = some (.inbound e0))
    (t now : Duration) (e : Duration) (r : Rand) (rid : Option Nat) (he : t < e) :
    ((s.event t (.inboundBuilt [(p.outbound, e)])).recreate true now r rid).1 = none := by
  have hne : p.inbound ≠ p.outbound := by
    intro e
    have := (hs.pin p hp).1
    rw [e, (hs.pout p hp).1] at this; cases this
  have hok := AMap.ok_put hs.ok p.outbound (.inbound e)
  have g : ∀ id, AMap.get ((s.tunnels.put p.outbound (.inbound e)).keep (retained (some p.inbound) t)) id = ((s.tunnels.put p.outbound (.inbound e)).get id).filter (retained (some p.inbound) t id) :=
    fun id => AMap.get_keep hok _ _
  have g1 : AMap.get ((s.tunnels.put p.outbound (.inbound e)).keep (retained (some p.inbound) t)) p.inbound = some (.inbound e0) := by
    rw [g, AMap.get_put, if_neg hne, hi]; simp [retained]
  have g2 : AMap.get ((s.tunnels.put p.outbound (.inbound e)).keep (retained (some p.inbound) t)) p.outbound = some (.inbound e) := by
    rw [g, AMap.get_put, if_pos rfl]; simp [retained, he]
  have hev : s.event t (.inboundBuilt [(p.outbound, e)]) = { s with tunnels := (s.tunnels.put p.outbound (.inbound e)).keep (retained (some p.inbound) t) } := by
    simp only [Hnd.event, hp, hi]
    simp [AMap.puts, hp]
  rw [hev]
  simp only [Hnd.recreate, hp, failIn, g1, Option.isNone_some, Bool.and_false, Bool.false_eq_true, if_false, Option.getD_some, failOut, AMap.get_put, if_neg (Ne.symm hne), g2, Option.isNone_none, Bool.and_self, if_true]

/-! ## C51: faulty tunnels -/

/-- C51: when an owner reports a path as faulty, the new path does not use its lease as long as there is another good one, and does not use its
outbound tunnel as long as there is another good one. -/
theorem C51_faulty_last (remote : Nat → Bool) (out : List Nat) (chk : Bool) (ops : List Op) (ho : Orderly out ops) (hsep : Separate remote out ops) {x : Hnd}
    (hx : x ∈ (run chk (Sys.new out) ops).handles) {p p' : Path} (hp : x.path = some p) (now : Duration) (r : Rand) (rid : Option Nat) (hr : (x.recreate chk now r rid).1 = some (some p')) :
    (∀ id e, id ≠ p.inbound → x.tunnels.get id = some (.inbound e) → now + 30 * 1000000000 < e → p'.inbound ≠ p.inbound) ∧
    (∀ id, id ≠ p.outbound → x.tunnels.get id = some .outbound → p'.outbound ≠ p.outbound) := by
  have hs := ((run_inv chk ops ho hsep).hs x hx).1
  obtain ⟨e, xx, k, h1, h2, h3, hne, h4, h5⟩ := recreate_eq hs chk now r rid hp
  rw [h5] at hr
  simp only [Option.some.injEq] at hr
  have ci := C51_lease_choice h4.ok now r.inb
  have co := C51_outbound_choice h4.ok now r.out
  have hg : ∀ id, (faulty x p e xx).tunnels.get id = if id = p.outbound then some (.failingOut xx) else if id = p.inbound then some (.failingIn e) else x.tunnels.get id := by
    intro id; simp only [faulty, AMap.get_put]
  have : ∃ e', selectOut (faulty x p e xx).tunnels now r.out = some p'.outbound ∧ selectIn (faulty x p e xx).tunnels now r.inb = some (p'.inbound, e') := by
    unfold Hnd.make at hr
    split at hr
    · cases hr
    · rename_i o ho'
      split at hr
      · rename_i i e' hi'
        simp only [Option.some.injEq] at hr
        rw [← hr]
        exact ⟨e', ho', hi'⟩
      · split at hr <;> cases hr
  obtain ⟨e', so, si⟩ := this
  rw [so] at co
  rw [si] at ci
  obtain ⟨ki, ci1, ci2, ci3, ci4⟩ := ci
  obtain ⟨ko, co1, co2, co3⟩ := co
  constructor
  · intro id el hid hk hlt heq
    have hio : id ≠ p.outbound := by
      intro e; have := hs.cls id _ hk; rw [e, (hs.pout p hp).1] at this; cases this
    have := ci4 id (.inbound el) (by rw [hg, if_neg hio, if_neg hid]; exact hk)
    rw [heq, hg, if_neg hne, if_pos rfl] at ci1
    cases ci1
    simp only [Kind.inScore, if_pos hlt] at this
    split at this <;> omega
  · intro id hid hk heq
    have hii : id ≠ p.inbound := by
      intro e; have := hs.cls id _ hk; rw [e, (hs.pin p hp).1] at this; cases this
    have := co3 id .outbound (by rw [hg, if_neg hid, if_neg hii]; exact hk)
    rw [heq, hg, if_pos rfl] at co1
    cases co1
    cases xx <;> simp only [Kind.outScore] at this
    · omega
    · split at this <;> omega

/-! ## Examples -/

/-- Two tunnels, one of which is about to expire and expires; two leases. -/
def goodOps : List Op :=
  [.leases 0 1 (some [(5, 100 * sec), (6, 600 * sec)]), .subscribe 1, .path 0 (10 * sec) ⟨0, 0⟩, .built 8, .expiring (20 * sec) 7, .poll 0 (30 * sec),
   .path 0 (30 * sec) ⟨0, 1⟩, .recreate 0 (40 * sec) ⟨0, 0⟩, .expired 7]

theorem good_orderly : Orderly [7] goodOps := by
  intro id
  simp only [goodOps, lifeOf, List.foldl_cons, List.foldl_nil, Option.bind_some, Life.next, List.mem_singleton]
  by_cases h7 : id = 7
  · subst h7; decide
  · by_cases h8 : id = 8
    · subst h8; decide
    · simp [h7, Ne.symm h8, Ne.symm h7, Life.next]

theorem good_separate : Separate (fun x => x == 5 || x == 6) [7] goodOps := by
  refine ⟨by decide, ?_⟩
  intro o ho
  simp only [goodOps, List.mem_cons, List.not_mem_nil, or_false] at ho
  rcases ho with rfl | rfl | rfl | rfl | rfl | rfl | rfl | rfl | rfl <;> simp

/-- The path that is handed out at the end. -/
example : (step true (run true (Sys.new [7]) (goodOps ++ [.poll 0 (90 * sec)])) (.path 0 (90 * sec) ⟨0, 0⟩)).1 = .path (some ⟨6, 8⟩) ∧
    Live [7] goodOps 8 ∧ ¬ Live [7] goodOps 7 := by
  refine ⟨by decide +kernel, ?_, ?_⟩ <;> simp only [Live] <;> decide

example : Live [7] goodOps 8 := C51_outbound_partial _ [7] true goodOps 0 (90 * sec) (90 * sec) ⟨0, 0⟩ good_orderly good_separate
  (by intro x hx; have : (run true (Sys.new [7]) goodOps).handles[0]?.all (fun x => !x.lost) = true := by decide +kernel
      rw [hx] at this; simpa using this) ⟨6, 8⟩ (by decide +kernel)

theorem good_alive : NoDeadEnd true (Sys.new [7]) goodOps := by
  intro pre h now r post e
  have hn : pre.length < goodOps.length := by rw [e]; simp
  have hg : goodOps[pre.length]? = some (.recreate h now r) := by rw [e]; simp
  have ht : pre = goodOps.take pre.length := by rw [e]; simp
  have hl : goodOps.length = 9 := rfl
  generalize pre.length = n at *
  rw [hl] at hn
  have hn : n = 0 ∨ n = 1 ∨ n = 2 ∨ n = 3 ∨ n = 4 ∨ n = 5 ∨ n = 6 ∨ n = 7 ∨ n = 8 := by omega
  rcases hn with rfl | rfl | rfl | rfl | rfl | rfl | rfl | rfl | rfl <;> simp only [goodOps, List.getElem?_cons_zero, List.getElem?_cons_succ, Option.some.injEq, reduceCtorEq, Op.recreate.injEq] at hg
  obtain ⟨rfl, rfl, rfl⟩ := hg
  rw [ht]
  constructor <;> decide +kernel

example := C51_lease_partial [7] true goodOps 0 (90 * sec) (90 * sec) (Nat.le_refl _) ⟨0, 0⟩ good_alive ⟨6, 8⟩ (by decide +kernel)

end Emissary.RPath
