import Verif.Model.Meet
/-!
# Two routers that connect to each other (C260 to C262)
-/
namespace Emissary.Meet
open Emissary Emissary.Transport

/-! ## Specification -/

/-- Nothing is under way: every handshake has ended, and no end is up whose other end is gone. -/
def Quiet (w : World) : Prop := ∀ c ∈ w.conns, (c.near = .up ∧ c.far = .up) ∨ (c.near = .down ∧ c.far = .down)

/-- Every handshake has ended. -/
def Finished (w : World) : Prop := ∀ c ∈ w.conns, c.near ≠ .shaking ∧ c.far ≠ .shaking

/-- The router `s` takes the other for connected. -/
def World.thinks (peer : Side → RouterId) (w : World) (s : Side) : Bool := (w.man s).connected (peer s)

/-! ## Connections and managers agree -/

theorem at_set (c : Conn) (s t : Side) (e : End) : (c.set s e).at t = if s = t then e else c.at t := by
  obtain ⟨d, n, f, x⟩ := c
  cases d <;> cases s <;> cases t <;> simp [Conn.set, Conn.at]

theorem at_sent (c : Conn) (t : Side) (b : Bool) : ({ c with sent := b } : Conn).at t = c.at t := rfl

theorem dialler_set (c : Conn) (s : Side) (e : End) : (c.set s e).dialler = c.dialler := by
  unfold Conn.set; split <;> rfl

theorem near_at (c : Conn) : c.near = c.at c.dialler := by simp [Conn.at]

theorem man_set (w : World) (s t : Side) (m : Manager) : (w.setMan s m).man t = if s = t then m else w.man t := by
  cases s <;> cases t <;> simp [World.setMan, World.man]

theorem conns_set (w : World) (s : Side) (m : Manager) : (w.setMan s m).conns = w.conns := by cases s <;> rfl
theorem panicked_set (w : World) (s : Side) (m : Manager) : (w.setMan s m).panicked = w.panicked := by cases s <;> rfl

def isUp (s : Side) (c : Conn) : Bool := c.at s == .up
def isDial (s : Side) (c : Conn) : Bool := c.dialler == s && c.near == .shaking

/-- The open connections of a router are those it takes for connected, at most one; and a dial is known as pending. -/
structure Inv (peer : Side → RouterId) (w : World) : Prop where
  known : ∀ s, (w.man s).known (peer s) = true
  ups : ∀ s, w.conns.countP (isUp s) = ((w.man s).connected (peer s)).toNat
  dials : ∀ s, w.conns.countP (isDial s) ≤ ((w.man s).pending (peer s)).toNat
  calm : w.panicked = false

theorem countP_set {α : Type} (p : α → Bool) (l : List α) (i : Nat) (x y : α) (h : l[i]? = some x) :
    (l.set i y).countP p + (p x).toNat = l.countP p + (p y).toNat := by
  have ht : ∀ b : Bool, (if b = true then 1 else 0) = b.toNat := by intro b; cases b <;> rfl
  induction l generalizing i with
  | nil => simp at h
  | cons z l ih =>
    cases i with
    | zero =>
      simp only [List.getElem?_cons_zero, Option.some.injEq] at h
      subst h
      simp only [List.set_cons_zero, List.countP_cons, ht]
      omega
    | succ i =>
      simp only [List.getElem?_cons_succ] at h
      have := ih i h
      simp only [List.set_cons_succ, List.countP_cons, ht]
      omega

theorem inv_init (peer : Side → RouterId) : Inv peer {} where
  known := fun s => by cases s <;> rfl
  ups := fun s => by cases s <;> rfl
  dials := fun s => by cases s <;> simp
  calm := rfl

theorem pos_of {α : Type} (p : α → Bool) (l : List α) (i : Nat) (x : α) (h : l[i]? = some x) (hp : p x = true) : 0 < l.countP p :=
  List.countP_pos_iff.mpr ⟨x, List.mem_of_getElem? h, hp⟩

/-- The counts after the end at `s` of a connection has changed. -/
theorem counts (cs : List Conn) (i : Nat) (c c' : Conn) (s : Side) (e : End) (hc : cs[i]? = some c) (he : e ≠ .shaking)
    (hd : c'.dialler = c.dialler) (hat : ∀ t, c'.at t = if s = t then e else c.at t) :
    (∀ t, s ≠ t → (cs.set i c').countP (isUp t) = cs.countP (isUp t) ∧ (cs.set i c').countP (isDial t) = cs.countP (isDial t)) ∧
    (cs.set i c').countP (isUp s) + (c.at s == .up).toNat = cs.countP (isUp s) + (e == .up).toNat ∧
    (cs.set i c').countP (isDial s) + (c.dialler == s && c.at s == .shaking).toNat = cs.countP (isDial s) := by
  have hu := fun t => countP_set (isUp t) cs i c c' hc
  have hdl := fun t => countP_set (isDial t) cs i c c' hc
  have hdial : ∀ (x : Conn) t, isDial t x = (x.dialler == t && x.at t == .shaking) := by
    intro x t
    obtain ⟨d, n, f, y⟩ := x
    cases d <;> cases t <;> first | rfl | (simp [isDial, Conn.at]; done)
  refine ⟨fun t hst => ?_, ?_, ?_⟩
  · have h1 := hu t
    have h2 := hdl t
    have e1 : isUp t c' = isUp t c := by simp only [isUp, hat, if_neg hst]
    have e2 : isDial t c' = isDial t c := by simp only [hdial, hat, if_neg hst, hd]
    rw [e1] at h1; rw [e2] at h2
    omega
  · have h1 := hu s
    have e1 : isUp s c' = (e == .up) := by simp only [isUp, hat, if_true]
    rw [e1] at h1
    exact h1
  · have h1 := hdl s
    have e1 : isDial s c' = false := by simp [hdial, hat, he]
    rw [e1, hdial c s] at h1
    exact h1

/-- The invariant after a change at `s`. -/
theorem inv_of (peer : Side → RouterId) (w w' : World) (s : Side) (i : Nat) (c c' : Conn) (e : End) (m : Manager) (h : Inv peer w)
    (hc : w.conns[i]? = some c) (he : e ≠ .shaking) (hd : c'.dialler = c.dialler) (hat : ∀ t, c'.at t = if s = t then e else c.at t)
    (hm : ∀ t, w'.man t = if s = t then m else w.man t) (hcs : w'.conns = w.conns.set i c') (hp : w'.panicked = false)
    (hk : m.known (peer s) = true)
    (hup : ∀ n, n + (c.at s == .up).toNat = ((w.man s).connected (peer s)).toNat + (e == .up).toNat →
      n = (m.connected (peer s)).toNat)
    (hdi : ∀ n, n + (c.dialler == s && c.at s == .shaking).toNat ≤ ((w.man s).pending (peer s)).toNat →
      n ≤ (m.pending (peer s)).toNat) : Inv peer w' := by
  obtain ⟨h1, h2, h3⟩ := counts w.conns i c c' s e hc he hd hat
  refine ⟨fun t => ?_, fun t => ?_, fun t => ?_, hp⟩
  · rw [hm]
    by_cases hst : s = t
    · subst hst; simpa using hk
    · rw [if_neg hst]; exact h.known t
  · rw [hm, hcs]
    by_cases hst : s = t
    · subst hst
      rw [if_pos rfl]
      exact hup _ (by rw [h2, h.ups])
    · rw [if_neg hst, (h1 t hst).1]; exact h.ups t
  · rw [hm, hcs]
    by_cases hst : s = t
    · subst hst
      rw [if_pos rfl]
      exact hdi _ (by rw [h3]; exact h.dials s)
    · rw [if_neg hst, (h1 t hst).2]; exact h.dials t

def admitted (m : Manager) (r : RouterId) : Manager :=
  { m with connected := put m.connected r true, pending := put m.pending r false }

theorem admit_new (m : Manager) (r : RouterId) (h : m.connected r = false) : m.admit r = (admitted m r, [.accept r]) := by
  simp [Manager.admit, h, admitted]

theorem ends : (End.shaking == End.up) = false ∧ (End.down == End.up) = false ∧ (End.up == End.up) = true ∧
    (End.shaking == End.shaking) = true ∧ (End.up == End.shaking) = false := ⟨rfl, rfl, rfl, rfl, rfl⟩

theorem put_at {α : Type} (f : RouterId → α) (k : RouterId) (v : α) : put f k v k = v := by simp [put]

theorem inv_step (chk : Bool) (peer : Side → RouterId) (w : World) (o : Op) (h : Inv peer w) : Inv peer (w.step chk peer o) := by
  cases o with
  | ask s =>
    have hk := h.known s
    simp only [World.step, Manager.step, Manager.dial, hk, if_true]
    by_cases hp : (w.man s).pending (peer s) = true
    · rw [if_pos hp]
      simp only [List.not_mem_nil, if_false, List.append_nil]
      have hw : { w.setMan s (w.man s) with conns := w.conns } = w := by cases s <;> rfl
      rw [hw]; exact h
    · rw [if_neg hp]
      simp only [List.mem_singleton, if_true]
      have hp' : (w.man s).pending (peer s) = false := by simpa using hp
      generalize hm : ({ w.man s with pending := put (w.man s).pending (peer s) true } : Manager) = m
      have hman : ∀ t, ({ w.setMan s m with conns := w.conns ++ [{ dialler := s }] } : World).man t = if s = t then m else w.man t := by
        intro t; cases s <;> cases t <;> rfl
      refine ⟨fun t => ?_, fun t => ?_, fun t => ?_, ?_⟩
      · rw [hman]
        by_cases hst : s = t
        · subst hst; rw [if_pos rfl, ← hm]; exact hk
        · rw [if_neg hst]; exact h.known t
      · rw [hman]
        have h0 : [({ dialler := s } : Conn)].countP (isUp t) = 0 := by cases s <;> cases t <;> rfl
        simp only [List.countP_append, h0, Nat.add_zero, h.ups]
        by_cases hst : s = t
        · subst hst; rw [if_pos rfl, ← hm]
        · rw [if_neg hst]
      · rw [hman]
        have h0 : [({ dialler := s } : Conn)].countP (isDial t) = if s = t then 1 else 0 := by cases s <;> cases t <;> rfl
        simp only [List.countP_append, h0]
        have hs := h.dials t
        by_cases hst : s = t
        · subst hst
          rw [hp'] at hs
          rw [if_pos rfl, if_pos rfl, ← hm]
          simp only [put_at, Bool.toNat_true]
          simp only [Bool.toNat_false] at hs
          omega
        · rw [if_neg hst, if_neg hst]; exact hs
      · cases s <;> exact h.calm
  | done s i =>
    simp only [World.step]
    cases hc : w.conns[i]? with
    | none => exact h
    | some c =>
      simp only
      split
      · rename_i hg
        obtain ⟨hsh, hok⟩ := hg
        have hat : ∀ (e : End) t, ({ c.set s e with sent := true } : Conn).at t = if s = t then e else c.at t := by
          intro e t; rw [at_sent, at_set]
        by_cases hds : c.dialler = s
        · -- the dialler: the dial was pending
          have hpend : (w.man s).pending (peer s) = true := by
            have h1 := pos_of (isDial s) w.conns i c hc (by simp [isDial, near_at, hds, hsh])
            have h2 := h.dials s
            cases hh : (w.man s).pending (peer s) with
            | true => rfl
            | false => rw [hh] at h2; simp only [Bool.toNat_false] at h2; omega
          have hst : (w.man s).step chk (if c.dialler = s then .outbound (peer s) else .inbound (peer s)) = (w.man s).admit (peer s) := by
            simp only [hds, if_true, Manager.step, hpend]
          rw [hst]
          by_cases hcon : (w.man s).connected (peer s) = true
          · have ha : (w.man s).admit (peer s) = (w.man s, [.reject (peer s)]) := by simp [Manager.admit, hcon]
            rw [ha]
            refine inv_of peer w _ s i c { c.set s .down with sent := true } .down (w.man s) h hc (by simp) (dialler_set ..) (hat _) (fun t => ?_) ?_ ?_ (h.known s) ?_ ?_
            · cases s <;> cases t <;> rfl
            · simp [conns_set]
            · simp [panicked_set, h.calm]
            · intro n hn; simpa [hsh, ends] using hn
            · intro n hn; omega
          · have hcf : (w.man s).connected (peer s) = false := by simpa using hcon
            rw [admit_new _ _ hcf]
            generalize hm : admitted (w.man s) (peer s) = m
            refine inv_of peer w _ s i c { c.set s .up with sent := true } .up m h hc (by simp) (dialler_set ..) (hat _) (fun t => ?_) ?_ ?_ ?_ ?_ ?_
            · cases s <;> cases t <;> rfl
            · simp [conns_set]
            · simp [panicked_set, h.calm]
            · rw [← hm]; exact h.known s
            · intro n hn; rw [hcf] at hn; rw [← hm]; simpa [hsh, put_at, ends, admitted] using hn
            · intro n hn
              rw [hpend] at hn
              simp [hds, hsh, ends] at hn
              omega
        · have hne : (c.dialler == s) = false := by simpa using hds
          by_cases hpe : (w.man s).pending (peer s) = true
          · have hst : (w.man s).step chk (if c.dialler = s then .outbound (peer s) else .inbound (peer s)) = (w.man s, [.reject (peer s)]) := by
              simp only [hds, if_false, Manager.step, hpe, if_true]
            rw [hst]
            refine inv_of peer w _ s i c { c.set s .down with sent := true } .down (w.man s) h hc (by simp) (dialler_set ..) (hat _) (fun t => ?_) ?_ ?_ (h.known s) ?_ ?_
            · cases s <;> cases t <;> rfl
            · simp [conns_set]
            · simp [panicked_set, h.calm]
            · intro n hn; simpa [hsh, ends] using hn
            · intro n hn; omega
          · have hst : (w.man s).step chk (if c.dialler = s then .outbound (peer s) else .inbound (peer s)) = (w.man s).admit (peer s) := by
              simp only [hds, if_false, Manager.step, hpe]
              simp
            rw [hst]
            by_cases hcon : (w.man s).connected (peer s) = true
            · have ha : (w.man s).admit (peer s) = (w.man s, [.reject (peer s)]) := by simp [Manager.admit, hcon]
              rw [ha]
              refine inv_of peer w _ s i c { c.set s .down with sent := true } .down (w.man s) h hc (by simp) (dialler_set ..) (hat _) (fun t => ?_) ?_ ?_ (h.known s) ?_ ?_
              · cases s <;> cases t <;> rfl
              · simp [conns_set]
              · simp [panicked_set, h.calm]
              · intro n hn; simpa [hsh, ends] using hn
              · intro n hn; omega
            · have hcf : (w.man s).connected (peer s) = false := by simpa using hcon
              have hpf : (w.man s).pending (peer s) = false := by simpa using hpe
              rw [admit_new _ _ hcf]
              generalize hm : admitted (w.man s) (peer s) = m
              refine inv_of peer w _ s i c { c.set s .up with sent := true } .up m h hc (by simp) (dialler_set ..) (hat _) (fun t => ?_) ?_ ?_ ?_ ?_ ?_
              · cases s <;> cases t <;> rfl
              · simp [conns_set]
              · simp [panicked_set, h.calm]
              · rw [← hm]; exact h.known s
              · intro n hn; rw [hcf] at hn; rw [← hm]; simpa [hsh, put_at, ends, admitted] using hn
              · intro n hn
                rw [hpf] at hn
                simp at hn
                omega
      · exact h
  | lost s i =>
    simp only [World.step]
    cases hc : w.conns[i]? with
    | none => exact h
    | some c =>
      simp only
      cases hx : c.at s with
      | down => exact h
      | up =>
        have hcon : (w.man s).connected (peer s) = true := by
          have h1 := pos_of (isUp s) w.conns i c hc (by simp [isUp, hx])
          rw [h.ups] at h1
          cases hh : (w.man s).connected (peer s) with
          | true => rfl
          | false => rw [hh] at h1; simp at h1
        simp only [Manager.step]
        generalize hm : ({ w.man s with connected := put (w.man s).connected (peer s) false } : Manager) = m
        refine inv_of peer w _ s i c _ .down m h hc (by simp) (dialler_set ..) (at_set c s · _) (fun t => ?_) ?_ ?_ ?_ ?_ ?_
        · cases s <;> cases t <;> rfl
        · simp [conns_set]
        · simp [panicked_set, h.calm]
        · rw [← hm]; exact h.known s
        · intro n hn
          rw [hcon] at hn
          rw [← hm]
          simp [hx, put_at, ends] at hn ⊢
          omega
        · intro n hn
          rw [← hm]
          simpa [hx, ends] using hn
      | shaking =>
        simp only
        by_cases hds : c.dialler = s
        · rw [if_pos hds]
          simp only [Manager.step]
          generalize hm : ({ w.man s with pending := put (w.man s).pending (peer s) false } : Manager) = m
          refine inv_of peer w _ s i c _ .down m h hc (by simp) (dialler_set ..) (at_set c s · _) (fun t => ?_) ?_ ?_ ?_ ?_ ?_
          · cases s <;> cases t <;> rfl
          · simp [conns_set]
          · simp [panicked_set, h.calm]
          · rw [← hm]; exact h.known s
          · intro n hn
            rw [← hm]
            simpa [hx, ends] using hn
          · intro n hn
            have := Bool.toNat_le ((w.man s).pending (peer s))
            simp [hds, hx, ends] at hn
            omega
        · rw [if_neg hds]
          refine inv_of peer w _ s i c _ .down (w.man s) h hc (by simp) (dialler_set ..) (at_set c s · _) (fun t => ?_) ?_ ?_ (h.known s) ?_ ?_
          · cases s <;> cases t <;> rfl
          · simp [conns_set]
          · simp [panicked_set, h.calm]
          · intro n hn
            simpa [hx, ends] using hn
          · intro n hn
            omega

theorem inv_run (chk : Bool) (peer : Side → RouterId) (ops : List Op) : Inv peer (World.run chk peer {} ops) := by
  have key : ∀ (ops : List Op) (w : World), Inv peer w → Inv peer (World.run chk peer w ops) := by
    intro ops
    induction ops with
    | nil => intro w h; exact h
    | cons o ops ih => intro w h; exact ih _ (inv_step chk peer w o h)
  exact key ops {} (inv_init peer)

/-- **C260**: whatever two routers ask for and however their connections break, each takes the other for connected exactly while it has an
open connection to it, has no two of them, and no assertion fails. When nothing is under way, both are of the same opinion. -/
theorem C260_agree (chk : Bool) (peer : Side → RouterId) (ops : List Op) :
    let w := World.run chk peer {} ops
    w.panicked = false ∧
    (∀ s, w.thinks peer s = true ↔ ∃ c ∈ w.conns, c.at s = .up) ∧
    (∀ (s : Side) (i j : Nat) (c d : Conn), w.conns[i]? = some c → w.conns[j]? = some d → c.at s = .up → d.at s = .up → i = j) ∧
    (Quiet w → w.thinks peer .a = w.thinks peer .b) := by
  intro w
  have h := inv_run chk peer ops
  have hthinks : ∀ s, w.thinks peer s = true ↔ ∃ c ∈ w.conns, c.at s = .up := by
    intro s
    have hu := h.ups s
    constructor
    · intro ht
      have hpos : 0 < w.conns.countP (isUp s) := by
        rw [hu]
        simp only [World.thinks] at ht
        rw [ht]; decide
      obtain ⟨c, hm, hc⟩ := List.countP_pos_iff.mp hpos
      exact ⟨c, hm, by simpa [isUp] using hc⟩
    · rintro ⟨c, hm, hc⟩
      have hpos : 0 < w.conns.countP (isUp s) := List.countP_pos_iff.mpr ⟨c, hm, by simp [isUp, hc]⟩
      rw [hu] at hpos
      simp only [World.thinks]
      cases hh : (w.man s).connected (peer s) with
      | true => rfl
      | false => rw [hh] at hpos; simp at hpos
  have two : ∀ (s : Side) (i j : Nat) (c d : Conn), w.conns[i]? = some c → w.conns[j]? = some d → c.at s = .up → d.at s = .up → i ≠ j → False := by
    intro s i j c d hi hj hc hd hij
    have h1 := countP_set (isUp s) w.conns i c (c.set s .down) hi
    have h2 : isUp s (c.set s .down) = false := by simp [isUp, at_set]
    have h3 : isUp s c = true := by simp [isUp, hc]
    rw [h2, h3] at h1
    have h4 := pos_of (isUp s) (w.conns.set i (c.set s .down)) j d (by rw [List.getElem?_set_ne hij]; exact hj) (by simp [isUp, hd])
    have h5 := h.ups s
    have h6 := Bool.toNat_le ((w.man s).connected (peer s))
    have h7 : w.conns.countP (isUp s) ≤ 1 := by rw [h5]; exact h6
    simp only [Bool.toNat_true, Bool.toNat_false] at h1
    omega
  refine ⟨h.calm, hthinks, ?_, ?_⟩
  · intro s i j c d hi hj hc hd
    rcases Nat.lt_trichotomy i j with hlt | heq | hlt
    · exact absurd (two s i j c d hi hj hc hd (by omega)) id
    · exact heq
    · exact absurd (two s i j c d hi hj hc hd (by omega)) id
  · intro hq
    have hiff : ∀ c ∈ w.conns, (c.at .a = .up ↔ c.at .b = .up) := by
      intro c hc
      rcases hq c hc with ⟨h1, h2⟩ | ⟨h1, h2⟩ <;> simp [Conn.at, h1, h2]
    rw [Bool.eq_iff_iff, hthinks, hthinks]
    exact ⟨fun ⟨c, hm, hc⟩ => ⟨c, hm, (hiff c hm).1 hc⟩, fun ⟨c, hm, hc⟩ => ⟨c, hm, (hiff c hm).2 hc⟩⟩

/-- Only handshakes end, each well. -/
def OnlyDone (ops : List Op) : Prop := ∀ o ∈ ops, ∃ s i, o = .done s i

/-- One router dialled. -/
structure One (peer : Side → RouterId) (s : Side) (w : World) (c : Conn) : Prop where
  conns : w.conns = [c]
  dialler : c.dialler = s
  far : (w.man s.other).pending (peer s.other) = false
  dialling : c.near = .shaking → c.far = .shaking ∧ c.sent = false ∧ (w.man s).pending (peer s) = true ∧ (w.man s).connected (peer s) = false
  dialled : c.near ≠ .shaking → c.near = .up
  answering : c.far = .shaking → (w.man s.other).connected (peer s.other) = false
  answered : c.far ≠ .shaking → c.far = .up

theorem other_ne (s : Side) : s.other ≠ s ∧ s ≠ s.other := by cases s <;> simp [Side.other]

theorem one_step (chk : Bool) (peer : Side → RouterId) (s : Side) (w : World) (c : Conn) (h : One peer s w c) (t : Side) (i : Nat) :
    ∃ c', One peer s (w.step chk peer (.done t i)) c' := by
  simp only [World.step, h.conns]
  cases i with
  | succ i => exact ⟨c, by simpa using h⟩
  | zero =>
    simp only [List.getElem?_cons_zero]
    split
    · rename_i hg
      obtain ⟨hsh, hok⟩ := hg
      by_cases hts : t = s
      · subst hts
        have hn : c.near = .shaking := by rw [near_at, h.dialler]; exact hsh
        obtain ⟨d1, d2, d3, d4⟩ := h.dialling hn
        have hst : (w.man t).step chk (if c.dialler = t then .outbound (peer t) else .inbound (peer t)) =
            (admitted (w.man t) (peer t), [.accept (peer t)]) := by
          simp only [h.dialler, if_true, Manager.step, d3]; exact admit_new _ _ d4
        rw [hst]
        refine ⟨{ c.set t .up with sent := true }, ?_⟩
        have hset : c.set t .up = { c with near := .up } := by simp [Conn.set, h.dialler]
        refine ⟨by simp [h.conns], by simp [hset, h.dialler], ?_, by simp [hset], by simp [hset], ?_, by simp [hset, d1]⟩
        · have := h.far; cases t <;> exact this
        · intro _
          have := h.answering d1
          cases t <;> exact this
      · have hto : t = s.other := by cases t <;> cases s <;> simp_all [Side.other]
        have hd : c.dialler ≠ t := by rw [h.dialler]; exact fun e => hts e.symm
        have hf : c.far = .shaking := by simpa [Conn.at, hd] using hsh
        have hsent : c.sent = true := by rcases hok with h1 | h1; exact absurd h1 hd; exact h1
        have hnn : c.near ≠ .shaking := fun hh => by have := (h.dialling hh).2.1; rw [hsent] at this; cases this
        have hcon := h.answering hf
        have hpe := h.far
        subst hto
        have hst : (w.man s.other).step chk (if c.dialler = s.other then .outbound (peer s.other) else .inbound (peer s.other)) =
            (admitted (w.man s.other) (peer s.other), [.accept (peer s.other)]) := by
          simp only [hd, if_false, Manager.step, hpe, Bool.false_eq_true]; exact admit_new _ _ hcon
        rw [hst]
        have hset : c.set s.other .up = { c with far := .up } := by simp [Conn.set, hd]
        refine ⟨{ c.set s.other .up with sent := true }, ⟨by simp [h.conns], by simp [hset, h.dialler], ?_, ?_, ?_, by simp [hset], by simp [hset]⟩⟩
        · cases s <;> simp [World.setMan, World.man, Side.other, admitted, put]
        · intro hh; exact absurd (by simpa [hset] using hh) hnn
        · intro _; simpa [hset] using h.dialled hnn
    · exact ⟨c, h⟩

theorem only_done_run {P : World → Prop} (chk : Bool) (peer : Side → RouterId) (step : ∀ w s i, P w → P (w.step chk peer (.done s i)))
    (ops : List Op) (ho : OnlyDone ops) : ∀ w, P w → P (w.run chk peer ops) := by
  induction ops with
  | nil => intro w h; exact h
  | cons o ops ih =>
    intro w h
    obtain ⟨s, i, rfl⟩ := ho o (by simp)
    exact ih (fun o ho' => ho o (by simp [ho'])) _ (step w s i h)

/-- **C261**, in part: when one of the routers asks for a connection and nothing goes wrong, both are connected, over the same connection. Missing:
that it is so when both ask. -/
theorem C261_one_asks_partial (chk : Bool) (peer : Side → RouterId) (s : Side) (ops : List Op) (ho : OnlyDone ops) :
    let w := World.run chk peer {} (.ask s :: ops)
    Finished w → w.thinks peer .a = true ∧ w.thinks peer .b = true ∧ ∃ c, w.conns = [c] ∧ c.near = .up ∧ c.far = .up := by
  intro w hf
  have h0 : ∃ c, One peer s (World.step chk peer {} (.ask s)) c := by
    refine ⟨{ dialler := s }, ?_⟩
    cases s <;> constructor <;> simp [World.step, World.setMan, World.man, Manager.step, Manager.dial, put, Side.other]
  obtain ⟨c, h⟩ := only_done_run (P := fun w => ∃ c, One peer s w c) chk peer
    (fun w t i ⟨c, h⟩ => one_step chk peer s w c h t i) ops ho _ h0
  have hw : w = World.run chk peer (World.step chk peer {} (.ask s)) ops := rfl
  rw [← hw] at h
  have hfc := hf c (by rw [h.conns]; simp)
  have h1 := h.dialled hfc.1
  have h2 := h.answered hfc.2
  have key := (C260_agree chk peer (.ask s :: ops)).2.1
  refine ⟨(key .a).2 ⟨c, ?_, ?_⟩, (key .b).2 ⟨c, ?_, ?_⟩, c, h.conns, h1, h2⟩
  · show c ∈ w.conns; rw [h.conns]; simp
  · unfold Conn.at; split <;> assumption
  · show c ∈ w.conns; rw [h.conns]; simp
  · unfold Conn.at; split <;> assumption

example : OnlyDone [.done .a 0, .done .b 0] ∧ Finished (World.run true (fun _ => [7]) {} [.ask .a, .done .a 0, .done .b 0]) := by
  refine ⟨fun o ho => ?_, ?_⟩
  · simp only [List.mem_cons, List.not_mem_nil, or_false] at ho
    rcases ho with rfl | rfl <;> exact ⟨_, _, rfl⟩
  · have : (World.run true (fun _ => [7]) {} [.ask .a, .done .a 0, .done .b 0]).conns = [⟨.a, .up, .up, true⟩] := by decide +kernel
    intro c hc
    rw [this] at hc
    simp only [List.mem_singleton] at hc
    subst hc
    simp

/-- Both dialled. -/
structure Both (peer : Side → RouterId) (w : World) (c d : Conn) : Prop where
  conns : w.conns = [c, d]
  first : c.dialler = .a
  second : d.dialler = .b
  near1 : (c.near = .shaking ∧ w.ma.pending (peer .a) = true ∧ w.ma.connected (peer .a) = false) ∨
    (c.near = .up ∧ w.ma.pending (peer .a) = false ∧ w.ma.connected (peer .a) = true)
  near2 : (d.near = .shaking ∧ w.mb.pending (peer .b) = true ∧ w.mb.connected (peer .b) = false) ∨
    (d.near = .up ∧ w.mb.pending (peer .b) = false ∧ w.mb.connected (peer .b) = true)
  far1 : c.far = .shaking ∨ c.far = .down
  far2 : d.far = .shaking ∨ d.far = .down

/-- A router that dials or is connected turns away whoever dials it. -/
theorem turned_away (chk : Bool) (m : Manager) (r : RouterId) (h : m.pending r = true ∨ m.connected r = true) :
    m.step chk (.inbound r) = (m, [.reject r]) := by
  simp only [Manager.step]
  by_cases hp : m.pending r = true
  · rw [if_pos hp]
  · rw [if_neg hp]
    have hc : m.connected r = true := by rcases h with h | h; exact absurd h hp; exact h
    simp [Manager.admit, hc]

theorem both_step (chk : Bool) (peer : Side → RouterId) (w : World) (s : Side) (i : Nat) (h : ∃ c d, Both peer w c d) :
    ∃ c d, Both peer (w.step chk peer (.done s i)) c d := by
  obtain ⟨c, d, h⟩ := h
  simp only [World.step, h.conns]
  have hb1 : w.ma.pending (peer .a) = true ∨ w.ma.connected (peer .a) = true := by
    rcases h.near1 with h1 | h1; exact .inl h1.2.1; exact .inr h1.2.2
  have hb2 : w.mb.pending (peer .b) = true ∨ w.mb.connected (peer .b) = true := by
    rcases h.near2 with h1 | h1; exact .inl h1.2.1; exact .inr h1.2.2
  match i with
  | i + 2 => exact ⟨c, d, by simpa using h⟩
  | 0 =>
    simp only [List.getElem?_cons_zero]
    split
    · rename_i hg
      cases s with
      | a =>
        have hn : c.near = .shaking := by simpa [Conn.at, h.first] using hg.1
        have h1 := h.near1
        rw [hn] at h1
        simp only [true_and, reduceCtorEq, false_and, or_false] at h1
        have hst : (w.man .a).step chk (if c.dialler = .a then .outbound (peer .a) else .inbound (peer .a)) =
            (admitted w.ma (peer .a), [.accept (peer .a)]) := by
          simp only [h.first, if_true, Manager.step, World.man, h1.1]; exact admit_new _ _ h1.2
        rw [hst]
        refine ⟨{ c.set .a .up with sent := true }, d, ?_⟩
        have hset : c.set .a .up = { c with near := .up } := by simp [Conn.set, h.first]
        exact ⟨by simp, by simp [hset, h.first], h.second,
          .inr ⟨by simp [hset], by simp [World.setMan, admitted, put], by simp [World.setMan, admitted, put]⟩, h.near2,
          by simpa [hset] using h.far1, h.far2⟩
      | b =>
        have hst : (w.man .b).step chk (if c.dialler = .b then .outbound (peer .b) else .inbound (peer .b)) =
            (w.mb, [.reject (peer .b)]) := by
          simp only [h.first, reduceCtorEq, if_false, World.man]; exact turned_away chk _ _ hb2
        rw [hst]
        refine ⟨{ c.set .b .down with sent := true }, d, ?_⟩
        have hset : c.set .b .down = { c with far := .down } := by simp [Conn.set, h.first]
        exact ⟨by simp, by simp [hset, h.first], h.second, by simpa [hset, World.setMan] using h.near1, h.near2, by simp [hset], h.far2⟩
    · exact ⟨c, d, h⟩
  | 1 =>
    simp only [List.getElem?_cons_succ, List.getElem?_cons_zero]
    split
    · rename_i hg
      cases s with
      | b =>
        have hn : d.near = .shaking := by simpa [Conn.at, h.second] using hg.1
        have h1 := h.near2
        rw [hn] at h1
        simp only [true_and, reduceCtorEq, false_and, or_false] at h1
        have hst : (w.man .b).step chk (if d.dialler = .b then .outbound (peer .b) else .inbound (peer .b)) =
            (admitted w.mb (peer .b), [.accept (peer .b)]) := by
          simp only [h.second, if_true, Manager.step, World.man, h1.1]; exact admit_new _ _ h1.2
        rw [hst]
        refine ⟨c, { d.set .b .up with sent := true }, ?_⟩
        have hset : d.set .b .up = { d with near := .up } := by simp [Conn.set, h.second]
        exact ⟨by simp, h.first, by simp [hset, h.second], h.near1,
          .inr ⟨by simp [hset], by simp [World.setMan, admitted, put], by simp [World.setMan, admitted, put]⟩,
          h.far1, by simpa [hset] using h.far2⟩
      | a =>
        have hst : (w.man .a).step chk (if d.dialler = .a then .outbound (peer .a) else .inbound (peer .a)) =
            (w.ma, [.reject (peer .a)]) := by
          simp only [h.second, reduceCtorEq, if_false, World.man]; exact turned_away chk _ _ hb1
        rw [hst]
        refine ⟨c, { d.set .a .down with sent := true }, ?_⟩
        have hset : d.set .a .down = { d with far := .down } := by simp [Conn.set, h.second]
        exact ⟨by simp, h.first, by simp [hset, h.second], h.near1, by simpa [hset, World.setMan] using h.near2, h.far1, by simp [hset]⟩
    · exact ⟨c, d, h⟩

/-- **C261**, violated: when both routers ask for a connection and nothing goes wrong, then in every order in which the handshakes end, each router
drops the connection of the other and keeps its own, which the other has dropped. When they notice, no connection is left, no
handshake is under way and neither router dials again by itself. -/
theorem C261_both_ask_violated (chk : Bool) (peer : Side → RouterId) (ops : List Op) (ho : OnlyDone ops) :
    let w := World.run chk peer {} (.ask .a :: .ask .b :: ops)
    Finished w →
      (∃ c d, w.conns = [c, d] ∧ c.dialler = .a ∧ c.near = .up ∧ c.far = .down ∧ d.dialler = .b ∧ d.near = .up ∧ d.far = .down) ∧
      (let v := w.run chk peer [.lost .a 0, .lost .b 1]
       (∀ c ∈ v.conns, c.near = .down ∧ c.far = .down) ∧ v.thinks peer .a = false ∧ v.thinks peer .b = false) := by
  intro w hf
  have h0 : ∃ c d, Both peer (World.step chk peer (World.step chk peer {} (.ask .a)) (.ask .b)) c d := by
    refine ⟨{ dialler := .a }, { dialler := .b }, ?_⟩
    constructor <;> simp [World.step, World.setMan, World.man, Manager.step, Manager.dial, put]
  obtain ⟨c, d, h⟩ := only_done_run (P := fun w => ∃ c d, Both peer w c d) chk peer
    (fun w s i h => both_step chk peer w s i h) ops ho _ h0
  have hw : w = World.run chk peer (World.step chk peer (World.step chk peer {} (.ask .a)) (.ask .b)) ops := rfl
  rw [← hw] at h
  clear_value w
  have hfc := hf c (by rw [h.conns]; simp)
  have hfd := hf d (by rw [h.conns]; simp)
  have n1 := h.near1.resolve_left (fun x => hfc.1 x.1)
  have n2 := h.near2.resolve_left (fun x => hfd.1 x.1)
  have f1 := h.far1.resolve_left hfc.2
  have f2 := h.far2.resolve_left hfd.2
  refine ⟨⟨c, d, h.conns, h.first, n1.1, f1, h.second, n2.1, f2⟩, ?_⟩
  intro v
  have hca : c.at .a = .up := by simp [Conn.at, h.first, n1.1]
  have hdb : d.at .b = .up := by simp [Conn.at, h.second, n2.1]
  have hc' : c.set .a .down = { c with near := .down } := by simp [Conn.set, h.first]
  have hd' : d.set .b .down = { d with near := .down } := by simp [Conn.set, h.second]
  have hv : v.conns = [{ c with near := .down }, { d with near := .down }] ∧ v.ma.connected (peer .a) = false ∧ v.mb.connected (peer .b) = false := by
    simp [v, World.run, World.step, h.conns, hca, hdb, hc', hd', World.setMan, World.man, Manager.step, put]
  refine ⟨?_, ?_, ?_⟩
  · intro x hx
    rw [hv.1] at hx
    simp only [List.mem_cons, List.not_mem_nil, or_false] at hx
    rcases hx with rfl | rfl
    · exact ⟨rfl, f1⟩
    · exact ⟨rfl, f2⟩
  · exact hv.2.1
  · exact hv.2.2

example : (World.run true (fun _ => [7]) {} [.ask .a, .ask .b, .done .a 0, .done .b 1, .done .b 0, .done .a 1]).conns =
    [⟨.a, .up, .down, true⟩, ⟨.b, .up, .down, true⟩] := by decide +kernel

end Emissary.Meet
