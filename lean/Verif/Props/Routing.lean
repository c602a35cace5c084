import Verif.Model.Routing
import Verif.Lemmas.Bytes
import Mathlib.Data.List.Induction
/-!
# Tunnel routing table, message dispatch and shutdown (C44, C45, C52, C53)
-/
namespace Emissary.Routing
open Emissary Emissary.I2np Emissary.Tunnel

/-! ## Specification: what the log of the operations says -/

/-- The tunnel a message names: the first four bytes of a `TunnelData` message of full length, or of a `TunnelGateway` message
that holds as many bytes as it announces. -/
def addressee (m : Message) : Option Nat :=
  match m.type with
  | .tunnelData => if m.payload.length ≥ 1028 then some (unbe (m.payload.take 4)) else none
  | .tunnelGateway =>
    if m.payload.length ≥ 6 ∧ m.payload.length ≥ 6 + unbe ((m.payload.drop 4).take 2) then some (unbe (m.payload.take 4)) else none
  | _ => none

/-- Messages that are sent through tunnels, as opposed to build messages and replies. -/
def isTunnelMessage (m : Message) : Bool := m.type = .tunnelData || m.type = .tunnelGateway

/-- What has happened, told by the calls and their results only: who was given which tunnel id and message id, and which
messages were accepted for and received by whom. -/
structure Hist where
  owner : Nat → Option Nat := fun _ => none
  room : Nat → Nat := fun _ => 0
  listener : Nat → Option Nat := fun _ => none
  given : List Nat := []
  closed : List Nat := []
  accepted : Nat → List Message := fun _ => []
  received : Nat → List Message := fun _ => []
  replied : Nat → List Message := fun _ => []
  heard : Nat → List Message := fun _ => []
  transitIn : List Message := []
  transitOut : List Message := []

def snoc (f : Nat → List Message) (k : Nat) (m : Message) : Nat → List Message := fun j => if j = k then f j ++ [m] else f j

def Hist.routed (H : Hist) (m : Message) (r : RouteRes) : Hist :=
  if isTunnelMessage m then
    match (addressee m).bind H.owner with
    | some h => if r = .ok then { H with accepted := snoc H.accepted h m } else H
    | none => H
  else match H.listener m.id with
    | some h =>
      let H := { H with listener := upd H.listener m.id none }
      if r = .ok then { H with replied := snoc H.replied h m } else H
    | none => if r = .ok then { H with transitIn := H.transitIn ++ [m] } else H

/-- Tunnel id `id` was given to the holder of receiver `h`. -/
def Hist.gave (H : Hist) (id h size : Nat) : Hist :=
  { H with owner := upd H.owner id (some h), room := fun j => if j = h then size else H.room j, given := h :: H.given }

def Hist.step (H : Hist) : Op × Seen → Hist
  | (.tryAdd _ size, .tunnel id h) | (.insertTunnel size _, .tunnel id h) =>
    H.gave id h size
  | (.removeTunnel id, _) => { H with owner := upd H.owner id none }
  | (.insertListener _, .listener id h) => { H with listener := upd H.listener id (some h), given := h :: H.given }
  | (.removeListener id, _) => { H with listener := upd H.listener id none }
  | (.route m, .routed r) => H.routed m r
  | (.recv h, .message (some m)) => { H with received := snoc H.received h m }
  | (.listen h, .message (some m)) => { H with heard := snoc H.heard h m }
  | (.recvTransit, .message (some m)) => { H with transitOut := H.transitOut ++ [m] }
  | (.dropRecv h, _) | (.dropListener h, _) => { H with closed := h :: H.closed }
  | _ => H

def hist (log : List (Op × Seen)) : Hist := log.foldl Hist.step {}

theorem tunnelIdOf_eq {m : Message} (h : isTunnelMessage m = true) : tunnelIdOf m = addressee m := by
  unfold tunnelIdOf addressee
  cases ht : m.type <;> simp [isTunnelMessage, ht] at h ⊢
  · generalize m.payload = p
    unfold Encrypted.parse
    simp only [beU, takeN, payloadLen]
    by_cases h1 : 4 ≤ p.length
    · by_cases h2 : 16 ≤ p.length - 4
      · by_cases h3 : 1008 ≤ p.length - 4 - 16
        · have : 1028 ≤ p.length := by omega
          have h4 : 1008 ≤ p.length - 20 := by omega
          simp [h1, h2, this, Nat.sub_sub, h4]
        · have : ¬ 1028 ≤ p.length := by omega
          have h4 : ¬ 1008 ≤ p.length - 20 := by omega
          simp [h1, h2, this, Nat.sub_sub, h4]
      · have : ¬ 1028 ≤ p.length := by omega
        simp [h1, h2, this]
    · have : ¬ 1028 ≤ p.length := by omega
      simp [h1, this]
  · generalize m.payload = p
    unfold TunnelGateway.parse
    simp only [beU, takeN]
    by_cases h1 : 4 ≤ p.length
    · by_cases h2 : 2 ≤ p.length - 4
      · have h3 : 6 ≤ p.length := by omega
        by_cases h4 : 6 + unbe ((p.drop 4).take 2) ≤ p.length
        · have : unbe ((p.drop 4).take 2) ≤ p.length - 6 := by omega
          simp [h1, h2, h3, h4, Nat.sub_sub, this]
        · have : ¬ unbe ((p.drop 4).take 2) ≤ p.length - 6 := by omega
          simp [h1, h2, h3, h4, Nat.sub_sub, this]
      · have : ¬ 6 ≤ p.length := by omega
        simp [h1, h2, this]
    · have : ¬ 6 ≤ p.length := by omega
      simp [h1, this]

/-! ## The table agrees with its log -/

theorem upd_same {α : Type} (f : Nat → Option α) (k : Nat) (v : Option α) : upd f k v k = v := by simp [upd]
theorem upd_ne {α : Type} {f : Nat → Option α} {k j : Nat} {v : Option α} (h : j ≠ k) : upd f k v j = f j := by simp [upd, h]

/-- State of one tunnel channel. -/
def ChanOk (H : Hist) (h : Nat) : Option (Chan Message) → Prop
  | none => H.accepted h = [] ∧ H.received h = []
  | some c => h ∈ H.given ∧ c.cap = H.room h ∧ (c.closed = true → h ∈ H.closed) ∧
      (h ∉ H.closed → H.received h ++ c.queue = H.accepted h)

/-- State of one oneshot channel. -/
def SlotOk (H : Hist) (h : Nat) : Option Slot → Prop
  | none => H.replied h = [] ∧ H.heard h = []
  | some .waiting => H.replied h = [] ∧ H.heard h = [] ∧ h ∈ H.given
  | some (.full m) => H.replied h = [m] ∧ H.heard h = [] ∧ h ∈ H.given
  | some .taken => (∃ m, H.replied h = [m] ∧ H.heard h = [m]) ∧ h ∈ H.given
  | some .dropped => h ∈ H.closed ∧ H.heard h <+: H.replied h ∧ (H.replied h).length ≤ 1 ∧ h ∈ H.given

structure Agree (t : Table) (H : Hist) : Prop where
  owner : H.owner = t.tunnels
  lis : H.listener = t.listeners
  fresh : ∀ h ∈ H.given, h < t.next
  freshC : ∀ h, t.next ≤ h → t.chans h = none
  freshS : ∀ h, t.next ≤ h → t.slots h = none
  tun : ∀ id h, t.tunnels id = some h → (t.chans h).isSome
  lisS : ∀ id h, t.listeners id = some h →
    t.slots h = some .waiting ∨ (t.slots h = some .dropped ∧ H.replied h = [])
  tunInj : ∀ i j h, t.tunnels i = some h → t.tunnels j = some h → i = j
  lisInj : ∀ i j h, t.listeners i = some h → t.listeners j = some h → i = j
  chan : ∀ h, ChanOk H h (t.chans h)
  slot : ∀ h, SlotOk H h (t.slots h)
  transit : H.transitOut ++ t.transit.queue = H.transitIn

theorem snoc_same (f : Nat → List Message) (k : Nat) (m : Message) : snoc f k m k = f k ++ [m] := by simp [snoc]
theorem snoc_ne {f : Nat → List Message} {k j : Nat} {m : Message} (h : j ≠ k) : snoc f k m j = f j := by simp [snoc, h]

theorem Agree.install {t : Table} {H : Hist} (a : Agree t H) (id size : Nat) :
    Agree (t.install id size) (H.gave id t.next size) := by
  have hnc := a.freshC t.next (Nat.le_refl _)
  have hns := a.freshS t.next (Nat.le_refl _)
  have hng : ∀ h ∈ H.given, h ≠ t.next := fun h hh => Nat.ne_of_lt (a.fresh h hh)
  constructor <;> simp only [Table.install, Hist.gave]
  · rw [a.owner]
  · exact a.lis
  · intro h hh
    rcases List.mem_cons.mp hh with rfl | hh
    · omega
    · exact Nat.lt_succ_of_lt (a.fresh h hh)
  · intro h hh
    rw [upd_ne (by omega)]
    exact a.freshC h (by omega)
  · intro h hh
    exact a.freshS h (by omega)
  · intro i h hh
    by_cases e : h = t.next
    · subst e; simp [upd]
    · rw [upd_ne e]
      by_cases e2 : i = id
      · subst e2; simp [upd] at hh; exact absurd hh.symm e
      · rw [upd_ne e2] at hh; exact a.tun i h hh
  · intro i h hh
    exact a.lisS i h hh
  · intro i j h hi hj
    have key : ∀ i, upd t.tunnels id (some t.next) i = some t.next → i = id := by
      intro i hi
      by_cases e : i = id
      · exact e
      · rw [upd_ne e] at hi
        have := a.tun i _ hi
        rw [hnc] at this; cases this
    by_cases e : h = t.next
    · subst e; rw [key i hi, key j hj]
    · have ne : ∀ i, upd t.tunnels id (some t.next) i = some h → i ≠ id := by
        intro i hi e2
        subst e2
        rw [upd_same] at hi; cases hi; exact e rfl
      have h1 := ne i hi
      have h2 := ne j hj
      rw [upd_ne h1] at hi
      rw [upd_ne h2] at hj
      exact a.tunInj i j h hi hj
  · exact a.lisInj
  · intro h
    have := a.chan h
    by_cases e : h = t.next
    · subst e
      rw [hnc] at this
      rw [upd_same]
      simp only [ChanOk] at this ⊢
      simp [this.1, this.2]
    · rw [upd_ne e]
      cases hc : t.chans h with
      | none => rw [hc] at this; exact this
      | some c =>
        rw [hc] at this
        simp only [ChanOk, if_neg e] at this ⊢
        exact ⟨List.mem_cons_of_mem _ this.1, this.2⟩
  · intro h
    have := a.slot h
    cases hc : t.slots h with
    | none => rw [hc] at this; exact this
    | some c =>
      rw [hc] at this
      cases c <;> simp only [SlotOk] at this ⊢ <;> simp_all
  · exact a.transit

theorem Agree.insertListener {t : Table} {H : Hist} (a : Agree t H) {id : Nat} :
    Agree { t with listeners := upd t.listeners id (some t.next), slots := upd t.slots t.next (some .waiting), next := t.next + 1 }
      { H with listener := upd H.listener id (some t.next), given := t.next :: H.given } := by
  have hnc := a.freshC t.next (Nat.le_refl _)
  have hns := a.freshS t.next (Nat.le_refl _)
  have hno : ∀ i, t.listeners i ≠ some t.next := by
    intro i hi
    rcases a.lisS i _ hi with h | h
    · rw [hns] at h; cases h
    · rw [hns] at h; cases h.1
  constructor
  · exact a.owner
  · show upd H.listener id _ = _; rw [a.lis]
  · intro h hh
    rcases List.mem_cons.mp hh with rfl | hh
    · show t.next < t.next + 1; omega
    · exact Nat.lt_succ_of_lt (a.fresh h hh)
  · intro h hh
    exact a.freshC h (Nat.le_of_succ_le hh)
  · intro h hh
    have hh : t.next + 1 ≤ h := hh
    show upd t.slots _ _ h = none
    rw [upd_ne (by omega)]
    exact a.freshS h (by omega)
  · exact a.tun
  · intro i h hh
    have hh : upd t.listeners id (some t.next) i = some h := hh
    show upd t.slots _ _ h = _ ∨ (upd t.slots _ _ h = _ ∧ _)
    by_cases e : h = t.next
    · subst e; left; exact upd_same _ _ _
    · rw [upd_ne e]
      by_cases e2 : i = id
      · subst e2; rw [upd_same] at hh; cases hh; exact absurd rfl e
      · rw [upd_ne e2] at hh; exact a.lisS i h hh
  · exact a.tunInj
  · intro i j h hi hj
    have hi : upd t.listeners id (some t.next) i = some h := hi
    have hj : upd t.listeners id (some t.next) j = some h := hj
    by_cases e1 : i = id <;> by_cases e2 : j = id
    · rw [e1, e2]
    · subst e1; rw [upd_same] at hi; rw [upd_ne e2] at hj; cases hi; exact absurd hj (hno j)
    · subst e2; rw [upd_same] at hj; rw [upd_ne e1] at hi; cases hj; exact absurd hi (hno i)
    · rw [upd_ne e1] at hi; rw [upd_ne e2] at hj; exact a.lisInj i j h hi hj
  · intro h
    have := a.chan h
    show ChanOk _ h (t.chans h)
    cases hc : t.chans h with
    | none => rw [hc] at this; exact this
    | some c => rw [hc] at this; exact ⟨List.mem_cons_of_mem _ this.1, this.2⟩
  · intro h
    have := a.slot h
    show SlotOk _ h (upd t.slots _ _ h)
    by_cases e : h = t.next
    · subst e
      rw [hns] at this
      rw [upd_same]
      exact ⟨this.1, this.2, by simp⟩
    · rw [upd_ne e]
      cases hc : t.slots h with
      | none => rw [hc] at this; exact this
      | some c =>
        rw [hc] at this
        cases c <;> simp only [SlotOk] at this ⊢ <;> simp_all
  · exact a.transit

theorem Agree.removeTunnel {t : Table} {H : Hist} (a : Agree t H) (id : Nat) :
    Agree (t.removeTunnel id) { H with owner := upd H.owner id none } := by
  constructor
  · show upd H.owner id none = _; rw [a.owner]; rfl
  · exact a.lis
  · exact a.fresh
  · exact a.freshC
  · exact a.freshS
  · intro i h hh
    have hh : upd t.tunnels id none i = some h := hh
    by_cases e : i = id
    · subst e; rw [upd_same] at hh; cases hh
    · rw [upd_ne e] at hh; exact a.tun i h hh
  · exact a.lisS
  · intro i j h hi hj
    have hi : upd t.tunnels id none i = some h := hi
    have hj : upd t.tunnels id none j = some h := hj
    have e1 : i ≠ id := by intro e; subst e; rw [upd_same] at hi; cases hi
    have e2 : j ≠ id := by intro e; subst e; rw [upd_same] at hj; cases hj
    rw [upd_ne e1] at hi; rw [upd_ne e2] at hj
    exact a.tunInj i j h hi hj
  · exact a.lisInj
  · exact a.chan
  · exact a.slot
  · exact a.transit

theorem Agree.removeListener {t : Table} {H : Hist} (a : Agree t H) (id : Nat) :
    Agree { t with listeners := upd t.listeners id none } { H with listener := upd H.listener id none } := by
  constructor
  · exact a.owner
  · show upd H.listener id none = _; rw [a.lis]
  · exact a.fresh
  · exact a.freshC
  · exact a.freshS
  · exact a.tun
  · intro i h hh
    have hh : upd t.listeners id none i = some h := hh
    by_cases e : i = id
    · subst e; rw [upd_same] at hh; cases hh
    · rw [upd_ne e] at hh; exact a.lisS i h hh
  · exact a.tunInj
  · intro i j h hi hj
    have hi : upd t.listeners id none i = some h := hi
    have hj : upd t.listeners id none j = some h := hj
    have e1 : i ≠ id := by intro e; subst e; rw [upd_same] at hi; cases hi
    have e2 : j ≠ id := by intro e; subst e; rw [upd_same] at hj; cases hj
    rw [upd_ne e1] at hi; rw [upd_ne e2] at hj
    exact a.lisInj i j h hi hj
  · exact a.chan
  · exact a.slot
  · exact a.transit

theorem isTunnelMessage_iff (m : Message) : isTunnelMessage m = true ↔ (m.type = .tunnelData ∨ m.type = .tunnelGateway) := by
  simp [isTunnelMessage]

theorem route_eq (chk : Bool) (t : Table) (m : Message) :
    t.route chk m = if isTunnelMessage m then t.routeTunnel chk m else t.routeListener chk m := by
  unfold Table.route
  cases h : m.type <;> simp [isTunnelMessage, h]

/-- Replacing channel `h` in the heap. -/
theorem Agree.setChan {t : Table} {H H' : Hist} (a : Agree t H) {h : Nat} {c : Chan Message} (hc : (t.chans h).isSome)
    (e1 : H'.owner = H.owner) (e2 : H'.listener = H.listener) (e3 : H'.given = H.given) (e4 : H'.replied = H.replied)
    (e5 : H'.heard = H.heard) (e6 : H'.transitIn = H.transitIn) (e7 : H'.transitOut = H.transitOut)
    (e8 : ∀ j ∈ H.closed, j ∈ H'.closed) (e9 : H'.room = H.room)
    (e10 : ∀ j, j ≠ h → (j ∈ H'.closed → j ∈ H.closed) ∧ H'.accepted j = H.accepted j ∧ H'.received j = H.received j)
    (ok : ChanOk H' h (some c)) : Agree { t with chans := upd t.chans h (some c) } H' := by
  have hn : h < t.next := by
    by_cases hlt : h < t.next
    · exact hlt
    · rw [a.freshC h (by omega)] at hc; cases hc
  constructor
  · rw [e1]; exact a.owner
  · rw [e2]; exact a.lis
  · rw [e3]; exact a.fresh
  · intro j hj
    have hj : t.next ≤ j := hj
    show upd t.chans h _ j = none
    rw [upd_ne (by omega)]; exact a.freshC j hj
  · exact a.freshS
  · intro i j hj
    show (upd t.chans h _ j).isSome
    by_cases e : j = h
    · subst e; rw [upd_same]; rfl
    · rw [upd_ne e]; exact a.tun i j hj
  · intro i j hj
    rw [e4]; exact a.lisS i j hj
  · exact a.tunInj
  · exact a.lisInj
  · intro j
    show ChanOk H' j (upd t.chans h _ j)
    by_cases e : j = h
    · subst e; rw [upd_same]; exact ok
    · rw [upd_ne e]
      have := a.chan j
      obtain ⟨f1, f2, f3⟩ := e10 j e
      cases hj : t.chans j with
      | none => rw [hj] at this; simp only [ChanOk] at this ⊢; rw [f2, f3]; exact this
      | some d =>
        rw [hj] at this; simp only [ChanOk] at this ⊢
        rw [f2, f3, e3, e9]
        exact ⟨this.1, this.2.1, fun hc => e8 _ (this.2.2.1 hc), fun hn => this.2.2.2 (fun hm => hn (e8 _ hm))⟩
  · intro j
    have := a.slot j
    show SlotOk H' j (t.slots j)
    cases hj : t.slots j with
    | none => rw [hj] at this; simp only [SlotOk] at this ⊢; rw [e4, e5]; exact this
    | some d =>
      rw [hj] at this
      cases d <;> simp only [SlotOk] at this ⊢ <;> rw [e4, e5, e3]
      · exact this
      · exact this
      · exact this
      · exact ⟨e8 _ this.1, this.2⟩
  · rw [e6, e7]; exact a.transit

theorem Agree.setSlot {t : Table} {H H' : Hist} (a : Agree t H) {h : Nat} {c : Slot} (hc : (t.slots h).isSome)
    (hl : ∀ id, t.listeners id = some h → c = .dropped ∧ H'.replied h = [])
    (e1 : H'.owner = H.owner) (e2 : H'.listener = H.listener) (e3 : H'.given = H.given) (e4 : H'.accepted = H.accepted)
    (e5 : H'.received = H.received) (e6 : H'.transitIn = H.transitIn) (e7 : H'.transitOut = H.transitOut)
    (e8 : ∀ j ∈ H.closed, j ∈ H'.closed) (e9 : H'.room = H.room)
    (e10 : ∀ j, j ≠ h → H'.replied j = H.replied j ∧ H'.heard j = H.heard j)
    (ok : SlotOk H' h (some c)) : Agree { t with slots := upd t.slots h (some c) } H' := by
  have hn : h < t.next := by
    by_cases hlt : h < t.next
    · exact hlt
    · rw [a.freshS h (by omega)] at hc; cases hc
  constructor
  · rw [e1]; exact a.owner
  · rw [e2]; exact a.lis
  · rw [e3]; exact a.fresh
  · exact a.freshC
  · intro j hj
    have hj : t.next ≤ j := hj
    show upd t.slots h _ j = none
    rw [upd_ne (by omega)]; exact a.freshS j hj
  · exact a.tun
  · intro i j hj
    show upd t.slots h _ j = _ ∨ (upd t.slots h _ j = _ ∧ _)
    by_cases e : j = h
    · subst e
      obtain ⟨f1, f2⟩ := hl i hj
      right; rw [upd_same, f1]; exact ⟨rfl, f2⟩
    · rw [upd_ne e, (e10 j e).1]; exact a.lisS i j hj
  · exact a.tunInj
  · exact a.lisInj
  · intro j
    have := a.chan j
    show ChanOk H' j (t.chans j)
    cases hj : t.chans j with
    | none => rw [hj] at this; simp only [ChanOk] at this ⊢; rw [e4, e5]; exact this
    | some d =>
      rw [hj] at this; simp only [ChanOk] at this ⊢
      rw [e3, e4, e5, e9]
      exact ⟨this.1, this.2.1, fun hc => e8 _ (this.2.2.1 hc), fun hn => this.2.2.2 (fun hm => hn (e8 _ hm))⟩
  · intro j
    show SlotOk H' j (upd t.slots h _ j)
    by_cases e : j = h
    · subst e; rw [upd_same]; exact ok
    · rw [upd_ne e]
      have := a.slot j
      obtain ⟨f1, f2⟩ := e10 j e
      cases hj : t.slots j with
      | none => rw [hj] at this; simp only [SlotOk] at this ⊢; rw [f1, f2]; exact this
      | some d =>
        rw [hj] at this
        cases d <;> simp only [SlotOk] at this ⊢ <;> rw [f1, f2, e3]
        · exact this
        · exact this
        · exact this
        · exact ⟨e8 _ this.1, this.2⟩
  · rw [e6, e7]; exact a.transit

/-- Only the list of closed receivers grows, by a handle without channel or with a dropped receiver. -/
theorem Agree.close {t : Table} {H : Hist} (a : Agree t H) (h : Nat) : Agree t { H with closed := h :: H.closed } := by
  constructor
  · exact a.owner
  · exact a.lis
  · exact a.fresh
  · exact a.freshC
  · exact a.freshS
  · exact a.tun
  · exact a.lisS
  · exact a.tunInj
  · exact a.lisInj
  · intro j
    have := a.chan j
    cases hj : t.chans j with
    | none => rw [hj] at this; exact this
    | some d =>
      rw [hj] at this
      exact ⟨this.1, this.2.1, fun hc => List.mem_cons_of_mem _ (this.2.2.1 hc),
        fun hn => this.2.2.2 (fun hm => hn (List.mem_cons_of_mem _ hm))⟩
  · intro j
    have := a.slot j
    cases hj : t.slots j with
    | none => rw [hj] at this; exact this
    | some d =>
      rw [hj] at this
      cases d <;> simp only [SlotOk] at this ⊢
      · exact this
      · exact this
      · exact this
      · exact ⟨List.mem_cons_of_mem _ this.1, this.2⟩
  · exact a.transit

theorem Agree.setTransit {t : Table} {H : Hist} (a : Agree t H) {c : Chan Message} {i o : List Message}
    (e : o ++ c.queue = i) : Agree { t with transit := c } { H with transitIn := i, transitOut := o } :=
  ⟨a.owner, a.lis, a.fresh, a.freshC, a.freshS, a.tun, a.lisS, a.tunInj, a.lisInj,
    fun h => by have := a.chan h; cases hc : t.chans h <;> rw [hc] at this <;> exact this,
    fun h => by
      have := a.slot h
      cases hc : t.slots h with
      | none => rw [hc] at this; exact this
      | some d => rw [hc] at this; cases d <;> exact this, e⟩

/-- What `route_tunnel_message` does when the tunnel exists. -/
theorem routeTunnel_some {chk : Bool} {t : Table} {m : Message} {id h : Nat} {c : Chan Message}
    (hd : tunnelIdOf m = some id) (ho : t.tunnels id = some h) (hc : t.chans h = some c) :
    t.routeTunnel chk m = if c.closed then (t, if chk then .panic else .closed)
      else if c.queue.length < c.cap then
        ({ t with chans := upd t.chans h (some { c with queue := c.queue ++ [m] }) }, .ok)
      else (t, .full) := by
  simp only [Table.routeTunnel, hd, ho, hc, Chan.trySend]
  by_cases h1 : c.closed = true
  · simp [h1]
  · by_cases h2 : c.queue.length < c.cap
    · simp [h1, h2]
    · simp [h1, h2]

theorem Agree.routeTunnel {t : Table} {H : Hist} (a : Agree t H) (chk : Bool) {m : Message} (hm : isTunnelMessage m = true)
    {r : Table × RouteRes} (hr : t.routeTunnel chk m = r) : Agree r.1 (H.routed m r.2) := by
  unfold Hist.routed
  rw [if_pos hm]
  cases hd : addressee m with
  | none => rw [Table.routeTunnel, tunnelIdOf_eq hm, hd] at hr; subst hr; exact a
  | some id =>
    have hd' := tunnelIdOf_eq hm ▸ hd
    have hown : H.owner id = t.tunnels id := by rw [a.owner]
    cases ho : t.tunnels id with
    | none => rw [Table.routeTunnel, hd'] at hr; simp only [ho] at hr; subst hr; simp [hown, ho]; exact a
    | some h =>
      have hs := a.tun id h ho
      simp only [Option.bind_some, hown, ho]
      cases hc : t.chans h with
      | none => rw [hc] at hs; cases hs
      | some c =>
        have hk := a.chan h
        rw [hc] at hk
        obtain ⟨g1, g2, g3, g4⟩ := hk
        rw [routeTunnel_some hd' ho hc] at hr
        by_cases hcl : c.closed = true
        · rw [if_pos hcl] at hr
          subst hr
          have hne : ¬ (if chk = true then RouteRes.panic else .closed) = .ok := by cases chk <;> simp
          rw [if_neg hne]; exact a
        · rw [if_neg hcl] at hr
          by_cases hlen : c.queue.length < c.cap
          · rw [if_pos hlen] at hr
            subst hr
            rw [if_pos rfl]
            refine a.setChan hs rfl rfl rfl rfl rfl rfl rfl (fun _ h => h) rfl ?_ ?_
            · intro j hj
              exact ⟨fun h => h, snoc_ne hj, rfl⟩
            · refine ⟨g1, g2, g3, fun hn => ?_⟩
              show H.received h ++ (c.queue ++ [m]) = snoc H.accepted h m h
              rw [snoc_same, ← List.append_assoc, g4 hn]
          · rw [if_neg hlen] at hr
            subst hr
            rw [if_neg (by simp)]; exact a

theorem routeListener_none {chk : Bool} {t : Table} {m : Message} (hl : t.listeners m.id = none) :
    t.routeListener chk m = if t.transit.closed then (t, .closed)
      else if t.transit.queue.length < t.transit.cap then
        ({ t with transit := { t.transit with queue := t.transit.queue ++ [m] } }, .ok)
      else (t, .full) := by
  simp only [Table.routeListener, hl, Chan.trySend]
  by_cases h1 : t.transit.closed = true
  · simp [h1, SendRes.route]
  · by_cases h2 : t.transit.queue.length < t.transit.cap
    · simp [h1, h2, SendRes.route]
    · simp [h1, h2, SendRes.route]

theorem routeListener_some {chk : Bool} {t : Table} {m : Message} {h : Nat} (hl : t.listeners m.id = some h) :
    t.routeListener chk m = if t.slots h = some .waiting then
        ({ t with listeners := upd t.listeners m.id none, slots := upd t.slots h (some (.full m)) }, .ok)
      else ({ t with listeners := upd t.listeners m.id none }, if chk then .panic else .closed) := by
  simp only [Table.routeListener, hl]
  by_cases h1 : t.slots h = some .waiting
  · simp [h1]
  · rw [if_neg h1]
    split
    · rename_i h2; exact absurd h2 h1
    · rfl

theorem Agree.routeListener {t : Table} {H : Hist} (a : Agree t H) (chk : Bool) {m : Message} (hm : ¬ isTunnelMessage m = true)
    {r : Table × RouteRes} (hr : t.routeListener chk m = r) : Agree r.1 (H.routed m r.2) := by
  unfold Hist.routed
  rw [if_neg hm]
  have hlis : H.listener m.id = t.listeners m.id := by rw [a.lis]
  cases hl : t.listeners m.id with
  | none =>
    rw [hlis, hl]
    rw [routeListener_none hl] at hr
    by_cases hcl : t.transit.closed = true
    · rw [if_pos hcl] at hr; subst hr; exact a
    · rw [if_neg hcl] at hr
      by_cases hlen : t.transit.queue.length < t.transit.cap
      · rw [if_pos hlen] at hr
        subst hr
        refine a.setTransit ?_
        show H.transitOut ++ (t.transit.queue ++ [m]) = _
        rw [← List.append_assoc, a.transit]
      · rw [if_neg hlen] at hr; subst hr; exact a
  | some h =>
    rw [hlis, hl]
    have ha := a.removeListener m.id
    rw [routeListener_some hl] at hr
    have hsl := a.slot h
    rcases a.lisS m.id h hl with hw | ⟨hd, hrep⟩
    · rw [if_pos hw] at hr
      subst hr
      rw [hw] at hsl
      refine ha.setSlot (h := h) (c := .full m) (by show (t.slots h).isSome; rw [hw]; rfl) ?_ rfl rfl rfl rfl rfl rfl rfl
        (fun _ h => h) rfl ?_ ?_
      · intro id hid
        have hid : upd t.listeners m.id none id = some h := hid
        by_cases e : id = m.id
        · rw [e, upd_same] at hid; cases hid
        · rw [upd_ne e] at hid
          exact absurd (a.lisInj id m.id h hid hl) e
      · intro j hj
        exact ⟨snoc_ne hj, rfl⟩
      · obtain ⟨s1, s2, s3⟩ := hsl
        refine ⟨?_, s2, s3⟩
        show snoc H.replied h m h = [m]
        rw [snoc_same, s1]; rfl
    · rw [if_neg (by rw [hd]; simp)] at hr
      subst hr
      have hne : ¬ (if chk = true then RouteRes.panic else .closed) = .ok := by cases chk <;> simp
      dsimp only
      rw [if_neg hne]; exact ha

theorem Agree.route {t : Table} {H : Hist} (a : Agree t H) (chk : Bool) (m : Message) :
    Agree (t.route chk m).1 (H.routed m (t.route chk m).2) := by
  have e := route_eq chk t m
  by_cases hm : isTunnelMessage m = true
  · rw [if_pos hm] at e; exact a.routeTunnel chk hm e.symm
  · rw [if_neg hm] at e; exact a.routeListener chk hm e.symm

theorem Agree.step {t : Table} {H : Hist} (a : Agree t H) (chk : Bool) (o : Op) :
    Agree (t.step chk o).1 (H.step (o, (t.step chk o).2)) := by
  cases o with
  | tryAdd id size =>
    unfold Table.step Table.tryAdd
    by_cases h : (t.tunnels id).isSome = true
    · simp only [h, if_true]; exact a
    · simp only [h, Bool.false_eq_true, if_false]; exact a.install id size
  | insertTunnel size draws =>
    cases h : draws.find? (fun id => (t.tunnels id).isNone) with
    | none => simp only [Table.step, Table.insertTunnel, h]; exact a
    | some id => simp only [Table.step, Table.insertTunnel, h]; exact a.install id size
  | removeTunnel id => exact a.removeTunnel id
  | insertListener draws =>
    cases h : draws.find? (fun id => (t.listeners id).isNone) with
    | none => simp only [Table.step, Table.insertListener, h]; exact a
    | some id => simp only [Table.step, Table.insertListener, h]; exact a.insertListener
  | removeListener id => exact a.removeListener id
  | route m => exact a.route chk m
  | recv h =>
    cases hc : t.chans h with
    | none => simp only [Table.step, Table.recvFrom, hc]; exact a
    | some c =>
      have hk := a.chan h
      rw [hc] at hk
      obtain ⟨g1, g2, g3, g4⟩ := hk
      cases hq : c.queue with
      | nil =>
        have : c.recv = (c, none) := by simp [Chan.recv, hq]
        simp only [Table.step, Table.recvFrom, hc, this]
        show Agree _ H
        refine a.setChan (by rw [hc]; rfl) rfl rfl rfl rfl rfl rfl rfl (fun _ h => h) rfl (fun j hj => ⟨fun h => h, rfl, rfl⟩) ?_
        exact ⟨g1, g2, g3, g4⟩
      | cons m q =>
        have : c.recv = ({ c with queue := q }, some m) := by simp [Chan.recv, hq]
        simp only [Table.step, Table.recvFrom, hc, this]
        show Agree _ { H with received := snoc H.received h m }
        refine a.setChan (by rw [hc]; rfl) rfl rfl rfl rfl rfl rfl rfl (fun _ h => h) rfl (fun j hj => ⟨fun h => h, rfl, snoc_ne hj⟩) ?_
        refine ⟨g1, g2, g3, fun hn => ?_⟩
        show snoc H.received h m h ++ q = H.accepted h
        rw [snoc_same, ← g4 hn, hq, List.append_assoc]; rfl
  | dropRecv h =>
    show Agree (t.dropFrom h) { H with closed := h :: H.closed }
    unfold Table.dropFrom
    cases hc : t.chans h with
    | none => exact a.close h
    | some c =>
      have hk := a.chan h
      rw [hc] at hk
      obtain ⟨g1, g2, g3, g4⟩ := hk
      refine (a.close h).setChan (by rw [hc]; rfl) rfl rfl rfl rfl rfl rfl rfl (fun _ h => h) rfl (fun j hj => ⟨fun h => h, rfl, rfl⟩) ?_
      exact ⟨g1, g2, fun _ => by simp, fun hn => absurd (by simp) hn⟩
  | listen h =>
    have hk := a.slot h
    cases hc : t.slots h with
    | none => simp only [Table.step, Table.listen, hc]; exact a
    | some s =>
      rw [hc] at hk
      cases s with
      | waiting => simp only [Table.step, Table.listen, hc]; exact a
      | taken => simp only [Table.step, Table.listen, hc]; exact a
      | dropped => simp only [Table.step, Table.listen, hc]; exact a
      | full m =>
        simp only [Table.step, Table.listen, hc]
        show Agree _ { H with heard := snoc H.heard h m }
        refine a.setSlot (by rw [hc]; rfl) ?_ rfl rfl rfl rfl rfl rfl rfl (fun _ h => h) rfl (fun j hj => ⟨rfl, snoc_ne hj⟩) ?_
        · intro id hid
          rcases a.lisS id h hid with e | e
          · rw [hc] at e; cases e
          · rw [hc] at e; cases e.1
        · obtain ⟨k1, k2, k3⟩ := hk
          refine ⟨⟨m, k1, ?_⟩, k3⟩
          show snoc H.heard h m h = [m]
          rw [snoc_same, k2]; rfl
  | dropListener h =>
    show Agree (t.dropListener h) { H with closed := h :: H.closed }
    unfold Table.dropListener
    have hk := a.slot h
    cases hc : t.slots h with
    | none => exact a.close h
    | some s =>
      rw [hc] at hk
      refine (a.close h).setSlot (by rw [hc]; rfl) ?_ rfl rfl rfl rfl rfl rfl rfl (fun _ h => h) rfl (fun j hj => ⟨rfl, rfl⟩) ?_
      · intro id hid
        refine ⟨rfl, ?_⟩
        rcases a.lisS id h hid with e | e
        · rw [hc] at e; cases e; exact hk.1
        · exact e.2
      · cases s with
        | waiting => obtain ⟨k1, k2, k3⟩ := hk; simp [SlotOk, k1, k2, k3]
        | full m => obtain ⟨k1, k2, k3⟩ := hk; simp [SlotOk, k1, k2, k3]
        | taken => obtain ⟨⟨m, k1, k2⟩, k3⟩ := hk; simp [SlotOk, k1, k2, k3]
        | dropped => obtain ⟨k1, k2, k3, k4⟩ := hk; simp [SlotOk, k2, k3, k4]
  | recvTransit =>
    cases hq : t.transit.queue with
    | nil => simp only [Table.step, Chan.recv, hq]; exact a
    | cons m q =>
      simp only [Table.step, Chan.recv, hq]
      refine a.setTransit ?_
      show (H.transitOut ++ [m]) ++ q = H.transitIn
      rw [← a.transit, hq, List.append_assoc]; rfl

/-- An empty table. -/
def Table.Empty (t : Table) : Prop :=
  t.tunnels = (fun _ => none) ∧ t.chans = (fun _ => none) ∧ t.listeners = (fun _ => none) ∧ t.slots = (fun _ => none) ∧
    t.transit.queue = []

theorem Agree.init {t : Table} (h : t.Empty) : Agree t {} := by
  obtain ⟨h1, h2, h3, h4, h5⟩ := h
  constructor <;> simp [h1, h2, h3, h4, h5, ChanOk, SlotOk]

theorem run_append (chk : Bool) (t : Table) (a b : List Op) :
    (t.run chk (a ++ b)) = (((t.run chk a).1.run chk b).1, (t.run chk a).2 ++ ((t.run chk a).1.run chk b).2) := by
  induction a generalizing t with
  | nil => rfl
  | cons o a ih => simp only [List.cons_append, Table.run, ih]

theorem Agree.run {t : Table} {H : Hist} (a : Agree t H) (chk : Bool) (ops : List Op) :
    Agree (t.run chk ops).1 ((t.run chk ops).2.foldl Hist.step H) := by
  induction ops generalizing t H with
  | nil => exact a
  | cons o ops ih => exact ih (a.step chk o)

theorem step_transit (chk : Bool) (t : Table) (o : Op) :
    (t.step chk o).1.transit.cap = t.transit.cap ∧ (t.step chk o).1.transit.closed = t.transit.closed := by
  cases o with
  | tryAdd id size => simp only [Table.step, Table.tryAdd]; by_cases h : (t.tunnels id).isSome = true <;> simp [h, Table.install]
  | insertTunnel size draws =>
    cases h : draws.find? (fun id => (t.tunnels id).isNone) <;> simp [Table.step, Table.insertTunnel, h, Table.install]
  | removeTunnel id => exact ⟨rfl, rfl⟩
  | insertListener draws =>
    cases h : draws.find? (fun id => (t.listeners id).isNone) <;> simp [Table.step, Table.insertListener, h]
  | removeListener id => exact ⟨rfl, rfl⟩
  | route m =>
    show (t.route chk m).1.transit.cap = _ ∧ (t.route chk m).1.transit.closed = _
    rw [route_eq]
    by_cases hm : isTunnelMessage m = true
    · rw [if_pos hm]
      unfold Table.routeTunnel
      split
      · exact ⟨rfl, rfl⟩
      · split
        · exact ⟨rfl, rfl⟩
        · split
          · exact ⟨rfl, rfl⟩
          · split <;> exact ⟨rfl, rfl⟩
    · rw [if_neg hm]
      cases hl : t.listeners m.id with
      | none =>
        rw [routeListener_none hl]
        split
        · exact ⟨rfl, rfl⟩
        · split <;> exact ⟨rfl, rfl⟩
      | some h => rw [routeListener_some hl]; split <;> exact ⟨rfl, rfl⟩
  | recv h => cases hc : t.chans h <;> simp [Table.step, Table.recvFrom, hc]
  | dropRecv h => cases hc : t.chans h <;> simp [Table.step, Table.dropFrom, hc]
  | listen h =>
    simp only [Table.step, Table.listen]
    split <;> exact ⟨rfl, rfl⟩
  | dropListener h => cases hc : t.slots h <;> simp [Table.step, Table.dropListener, hc]
  | recvTransit => cases hc : t.transit.queue <;> simp [Table.step, Chan.recv, hc]

theorem run_transit (chk : Bool) (t : Table) (ops : List Op) :
    (t.run chk ops).1.transit.cap = t.transit.cap ∧ (t.run chk ops).1.transit.closed = t.transit.closed := by
  induction ops generalizing t with
  | nil => exact ⟨rfl, rfl⟩
  | cons o ops ih =>
    have h1 := step_transit chk t o
    have h2 := ih (t.step chk o).1
    exact ⟨h2.1.trans h1.1, h2.2.trans h1.2⟩

/-! ## C44: a tunnel id has one owner, who gets its messages -/

/-- After any history, adding a tunnel under an id is refused exactly when the id has an owner; an id is only ever given out while
it has none, and each time to a new receiver. (A refused call leaves every owner as it is: `Hist.step` ignores it, and the
following theorems hold for the history that contains it.) -/
theorem C44_ids_are_not_taken_over {t : Table} (ht : t.Empty) (chk : Bool) (ops : List Op) :
    let s := (t.run chk ops).1
    let H := hist (t.run chk ops).2
    (∀ id size, (s.step chk (.tryAdd id size)).2 = .refused ↔ (H.owner id).isSome) ∧
    (∀ o id h, (s.step chk o).2 = .tunnel id h → H.owner id = none ∧ h ∉ H.given) := by
  intro s H
  have a : Agree s H := (Agree.init ht).run chk ops
  have hg : s.next ∉ H.given := fun h => absurd (a.fresh _ h) (Nat.lt_irrefl _)
  refine ⟨?_, ?_⟩
  · intro id size
    rw [a.owner]
    by_cases h : (s.tunnels id).isSome = true <;> simp [Table.step, Table.tryAdd, h]
  · intro o id h ho
    rw [a.owner]
    cases o with
    | tryAdd i size =>
      by_cases hh : (s.tunnels i).isSome = true
      · simp [Table.step, Table.tryAdd, hh] at ho
      · simp [Table.step, Table.tryAdd, hh] at ho
        obtain ⟨rfl, rfl⟩ := ho
        exact ⟨by simpa using hh, hg⟩
    | insertTunnel size draws =>
      cases hh : draws.find? (fun id => (s.tunnels id).isNone) with
      | none => simp [Table.step, Table.insertTunnel, hh] at ho
      | some i =>
        simp [Table.step, Table.insertTunnel, hh] at ho
        obtain ⟨rfl, rfl⟩ := ho
        have := List.find?_some hh
        exact ⟨by simpa using this, hg⟩
    | removeTunnel i => simp [Table.step] at ho
    | insertListener draws =>
      cases hh : draws.find? (fun id => (s.listeners id).isNone) <;> simp [Table.step, Table.insertListener, hh] at ho
    | removeListener i => simp [Table.step] at ho
    | route m => simp [Table.step] at ho
    | recv i => simp [Table.step] at ho
    | dropRecv i => simp [Table.step] at ho
    | listen i => simp [Table.step] at ho
    | dropListener i => simp [Table.step] at ho
    | recvTransit => simp [Table.step] at ho

/-- After any history, a tunnel message is refused as unparsable exactly when it names no tunnel, as unroutable exactly when the
tunnel it names has no owner, and otherwise accepted for that owner, unless as many messages are waiting for them as they have
room for. -/
theorem C44_messages_go_to_the_owner {t : Table} (ht : t.Empty) (chk : Bool) (ops : List Op) {m : Message}
    (hm : m.type = .tunnelData ∨ m.type = .tunnelGateway) :
    let s := (t.run chk ops).1
    let H := hist (t.run chk ops).2
    (addressee m = none → (s.route chk m).2 = .unparsable) ∧
    (∀ id, addressee m = some id → H.owner id = none → (s.route chk m).2 = .notFound) ∧
    (∀ id h, addressee m = some id → H.owner id = some h → h ∉ H.closed →
      (s.route chk m).2 = if (H.accepted h).length < (H.received h).length + H.room h then .ok else .full) := by
  intro s H
  have a : Agree s H := (Agree.init ht).run chk ops
  have hm' := (isTunnelMessage_iff m).mpr hm
  have e := route_eq chk s m
  rw [if_pos hm'] at e
  rw [e]
  refine ⟨fun hd => ?_, fun id hd ho => ?_, fun id h hd ho hcl => ?_⟩
  · rw [Table.routeTunnel, tunnelIdOf_eq hm', hd]
  · rw [a.owner] at ho
    rw [Table.routeTunnel, tunnelIdOf_eq hm', hd]
    simp only [ho]
  · rw [a.owner] at ho
    have hs := a.tun id h ho
    have hk := a.chan h
    cases hc : s.chans h with
    | none => rw [hc] at hs; cases hs
    | some c =>
      rw [hc] at hk
      obtain ⟨g1, g2, g3, g4⟩ := hk
      rw [routeTunnel_some ((tunnelIdOf_eq hm').trans hd) ho hc, if_neg (fun h => hcl (g3 h))]
      have g5 := congrArg List.length (g4 hcl)
      rw [List.length_append] at g5
      by_cases hlen : c.queue.length < c.cap
      · rw [if_pos hlen, if_pos (by omega)]
      · rw [if_neg hlen, if_neg (by omega)]

/-- The receiver with handle `h` was dropped. -/
def Gone (t : Table) (h : Nat) : Prop := ∃ c, t.chans h = some c ∧ c.closed = true

theorem Gone.set {t t' : Table} {h j : Nat} {c : Chan Message} (g : Gone t h) (hc : ∀ d, t.chans j = some d → d.closed = true → c.closed = true)
    (e : t'.chans = upd t.chans j (some c)) : Gone t' h := by
  obtain ⟨d, h1, h2⟩ := g
  by_cases hj : h = j
  · subst hj; exact ⟨c, by rw [e, upd_same], hc d h1 h2⟩
  · exact ⟨d, by rw [e, upd_ne hj, h1], h2⟩

theorem Gone.routeTunnel {t : Table} {h : Nat} (g : Gone t h) (chk : Bool) (m : Message) : Gone (t.routeTunnel chk m).1 h := by
  unfold Table.routeTunnel
  split
  · exact g
  · split
    · exact g
    · next j _ =>
      split
      · exact g
      · next c hc =>
        split
        · next c' e =>
          refine g.set (j := j) (c := c') (fun d hd hcl => ?_) rfl
          obtain rfl : c = d := Option.some.inj (hc.symm.trans hd)
          simp [Chan.trySend, hcl] at e
        · exact g
        · exact g

theorem Gone.routeListener {t : Table} {h : Nat} (g : Gone t h) (chk : Bool) (m : Message) : Gone (t.routeListener chk m).1 h := by
  unfold Table.routeListener
  split
  · dsimp only
    split <;> exact g
  · exact g

theorem Gone.step {t : Table} {H : Hist} (a : Agree t H) {h : Nat} (g : Gone t h) (chk : Bool) (o : Op) : Gone (t.step chk o).1 h := by
  have hi : ∀ id size, Gone (t.install id size) h := fun id size =>
    g.set (j := t.next) (c := { cap := size }) (fun d hd _ => by rw [a.freshC t.next (Nat.le_refl _)] at hd; cases hd) rfl
  cases o with
  | tryAdd id size => unfold Table.step Table.tryAdd; by_cases e : (t.tunnels id).isSome = true <;> simp only [e] <;> first | exact g | exact hi _ _
  | insertTunnel size draws =>
    cases e : draws.find? (fun id => (t.tunnels id).isNone) with
    | none => simp only [Table.step, Table.insertTunnel, e]; exact g
    | some id => simp only [Table.step, Table.insertTunnel, e]; exact hi _ _
  | removeTunnel id => exact g
  | insertListener draws =>
    cases e : draws.find? (fun id => (t.listeners id).isNone) with
    | none => simp only [Table.step, Table.insertListener, e]; exact g
    | some id => simp only [Table.step, Table.insertListener, e]; exact g
  | removeListener id => exact g
  | route m =>
    show Gone (t.route chk m).1 h
    rw [route_eq]
    split
    · exact g.routeTunnel chk m
    · exact g.routeListener chk m
  | recv j =>
    show Gone (t.recvFrom j).1 h
    unfold Table.recvFrom
    split
    · exact g
    · next c hc =>
      have : c.recv.1.closed = c.closed := by unfold Chan.recv; split <;> rfl
      exact g.set (j := j) (c := c.recv.1) (fun d hd hcl => by rw [hc] at hd; cases hd; rw [this]; exact hcl) rfl
  | dropRecv j =>
    show Gone (t.dropFrom j) h
    unfold Table.dropFrom
    split
    · exact g
    · exact g.set (j := j) (fun _ _ _ => rfl) rfl
  | listen j => show Gone (t.listen j).1 h; unfold Table.listen; split <;> exact g
  | dropListener j => show Gone (t.dropListener j) h; unfold Table.dropListener; split <;> exact g
  | recvTransit => exact g

theorem Gone.run {t : Table} {H : Hist} (a : Agree t H) {h : Nat} (g : Gone t h) (chk : Bool) (ops : List Op) : Gone (t.run chk ops).1 h := by
  induction ops generalizing t H with
  | nil => exact g
  | cons o ops ih => exact ih (a.step chk o) (g.step a chk o)

/-- Once the owner of a tunnel id has dropped the receiver, every message for the id is refused, until the id is given away again: with
debug assertions the router panics. -/
theorem C44_dropped_receiver_is_noticed {t : Table} (ht : t.Empty) (chk : Bool) (ops later : List Op) {m : Message}
    (hm : m.type = .tunnelData ∨ m.type = .tunnelGateway) {id h : Nat} (hd : addressee m = some id) :
    let H := hist (t.run chk ops).2
    let s := (t.run chk (ops ++ .dropRecv h :: later)).1
    let H' := hist (t.run chk (ops ++ .dropRecv h :: later)).2
    H.owner id = some h → H'.owner id = some h → (s.route chk m).2 = if chk then .panic else .closed := by
  intro H s H' ho ho'
  have a : Agree (t.run chk ops).1 H := (Agree.init ht).run chk ops
  have a' : Agree s H' := (Agree.init ht).run chk (ops ++ .dropRecv h :: later)
  rw [a.owner] at ho
  rw [a'.owner] at ho'
  have g1 : Gone ((t.run chk ops).1.dropFrom h) h := by
    have hs := a.tun id h ho
    unfold Table.dropFrom
    cases hc : (t.run chk ops).1.chans h with
    | none => rw [hc] at hs; cases hs
    | some c => exact ⟨_, upd_same .., rfl⟩
  have g2 : Gone s h := by
    have := g1.run (a.step chk (.dropRecv h)) chk later
    show Gone (t.run chk (ops ++ .dropRecv h :: later)).1 h
    rw [run_append]
    exact this
  obtain ⟨c, h1, h2⟩ := g2
  have hm' := (isTunnelMessage_iff m).mpr hm
  have e := route_eq chk s m
  rw [if_pos hm'] at e
  rw [e, routeTunnel_some ((tunnelIdOf_eq hm').trans hd) ho' h1, if_pos h2]

/-- After any history, the owner of a tunnel id has received the messages accepted for them in order, without loss and without
duplicates, and finds nothing to receive only if they have received all of them. -/
theorem C44_owner_receives_in_order {t : Table} (ht : t.Empty) (chk : Bool) (ops : List Op) {h : Nat} :
    let s := (t.run chk ops).1
    let H := hist (t.run chk ops).2
    h ∉ H.closed → H.received h <+: H.accepted h ∧
      ((s.step chk (.recv h)).2 = .message none → H.received h = H.accepted h) := by
  intro s H hcl
  have a : Agree s H := (Agree.init ht).run chk ops
  have hk := a.chan h
  cases hc : s.chans h with
  | none =>
    rw [hc] at hk
    rw [hk.1, hk.2]
    simp
  | some c =>
    rw [hc] at hk
    obtain ⟨g1, g2, g3, g4⟩ := hk
    refine ⟨⟨c.queue, g4 hcl⟩, fun hr => ?_⟩
    cases hq : c.queue with
    | nil => rw [← g4 hcl, hq, List.append_nil]
    | cons m q => simp [Table.step, Table.recvFrom, hc, Chan.recv, hq] at hr

/-! ## C45: a reply reaches its listener exactly once -/

/-- After any history, a message id is given to a listener exactly when nobody listens for it, and each time to a new one. -/
theorem C45_id_given_while_free {t : Table} (ht : t.Empty) (chk : Bool) (ops : List Op) :
    let s := (t.run chk ops).1
    let H := hist (t.run chk ops).2
    (∀ id, (∃ h, (s.step chk (.insertListener [id])).2 = .listener id h) ↔ H.listener id = none) ∧
    (∀ o id h, (s.step chk o).2 = .listener id h → H.listener id = none ∧ h ∉ H.given) := by
  intro s H
  have a : Agree s H := (Agree.init ht).run chk ops
  have hg : s.next ∉ H.given := fun h => absurd (a.fresh _ h) (Nat.lt_irrefl _)
  refine ⟨?_, ?_⟩
  · intro id
    rw [a.lis]
    cases h : s.listeners id <;> simp [Table.step, Table.insertListener, h]
  · intro o id h ho
    rw [a.lis]
    cases o with
    | tryAdd i size => by_cases hh : (s.tunnels i).isSome = true <;> simp [Table.step, Table.tryAdd, hh] at ho
    | insertTunnel size draws =>
      cases hh : draws.find? (fun id => (s.tunnels id).isNone) <;> simp [Table.step, Table.insertTunnel, hh] at ho
    | removeTunnel i => simp [Table.step] at ho
    | insertListener draws =>
      cases hh : draws.find? (fun id => (s.listeners id).isNone) with
      | none => simp [Table.step, Table.insertListener, hh] at ho
      | some i =>
        simp [Table.step, Table.insertListener, hh] at ho
        obtain ⟨rfl, rfl⟩ := ho
        have := List.find?_some hh
        exact ⟨by simpa using this, hg⟩
    | removeListener i => simp [Table.step] at ho
    | route m => simp [Table.step] at ho
    | recv i => simp [Table.step] at ho
    | dropRecv i => simp [Table.step] at ho
    | listen i => simp [Table.step] at ho
    | dropListener i => simp [Table.step] at ho
    | recvTransit => simp [Table.step] at ho

/-- After any history, a message whose id somebody listens for is accepted for that listener (who is still there), and the listener
then finds it; at most one message is ever accepted for a listener, and what they hear is that message, at most once. -/
theorem C45_listener_hears_the_first_message_once {t : Table} (ht : t.Empty) (chk : Bool) (ops : List Op) {m : Message}
    (hm : ¬ (m.type = .tunnelData ∨ m.type = .tunnelGateway)) :
    let s := (t.run chk ops).1
    let H := hist (t.run chk ops).2
    (∀ h, H.listener m.id = some h → h ∉ H.closed →
      (s.route chk m).2 = .ok ∧ ((s.route chk m).1.step chk (.listen h)).2 = .message (some m)) ∧
    (∀ h, (H.replied h).length ≤ 1 ∧ H.heard h <+: H.replied h) ∧
    (∀ h, h ∈ H.given → h ∉ H.closed → (s.step chk (.listen h)).2 = .message none → H.heard h = H.replied h) := by
  intro s H
  have a : Agree s H := (Agree.init ht).run chk ops
  have hm' : ¬ isTunnelMessage m = true := fun h => hm ((isTunnelMessage_iff m).mp h)
  have e := route_eq chk s m
  rw [if_neg hm'] at e
  refine ⟨fun h hl hcl => ?_, fun h => ?_, fun h _ hcl hn => ?_⟩
  · rw [a.lis] at hl
    have hw : s.slots h = some .waiting := by
      rcases a.lisS _ _ hl with hw | ⟨hd, _⟩
      · exact hw
      · have := a.slot h
        rw [hd] at this
        exact absurd this.1 hcl
    rw [e, routeListener_some hl, if_pos hw]
    exact ⟨rfl, by simp [Table.step, Table.listen, upd_same]⟩
  · have := a.slot h
    cases hc : s.slots h with
    | none => rw [hc] at this; simp [this.1, this.2]
    | some d =>
      rw [hc] at this
      cases d with
      | waiting => simp [this.1, this.2.1]
      | full m => simp [this.1, this.2.1]
      | taken => obtain ⟨⟨m, h1, h2⟩, _⟩ := this; simp [h1, h2]
      | dropped => exact ⟨this.2.2.1, this.2.1⟩
  · have := a.slot h
    cases hc : s.slots h with
    | none => rw [hc] at this; rw [this.1, this.2]
    | some d =>
      rw [hc] at this
      cases d with
      | waiting => rw [this.1, this.2.1]
      | full m => simp [Table.step, Table.listen, hc] at hn
      | taken => obtain ⟨⟨m, h1, h2⟩, _⟩ := this; rw [h1, h2]
      | dropped => exact absurd this.1 hcl

/-- After any history, a message nobody listens for goes to the transit tunnels, which receive such messages in order, as long as
there is room. -/
theorem C45_other_messages_go_to_transit {t : Table} (ht : t.Empty) (hc : t.transit.closed = false) (chk : Bool) (ops : List Op)
    {m : Message} (hm : ¬ (m.type = .tunnelData ∨ m.type = .tunnelGateway)) :
    let s := (t.run chk ops).1
    let H := hist (t.run chk ops).2
    (H.listener m.id = none →
      (s.route chk m).2 = if H.transitIn.length < H.transitOut.length + t.transit.cap then .ok else .full) ∧
    H.transitOut <+: H.transitIn ∧
    ((s.step chk .recvTransit).2 = .message none → H.transitOut = H.transitIn) := by
  intro s H
  have a : Agree s H := (Agree.init ht).run chk ops
  have hm' : ¬ isTunnelMessage m = true := fun h => hm ((isTunnelMessage_iff m).mp h)
  have e := route_eq chk s m
  rw [if_neg hm'] at e
  obtain ⟨c1, c2⟩ := run_transit chk t ops
  refine ⟨fun hl => ?_, ⟨_, a.transit⟩, fun hn => ?_⟩
  · rw [a.lis] at hl
    rw [e, routeListener_none hl, if_neg (by rw [c2, hc]; simp), c1]
    have g5 := congrArg List.length a.transit
    rw [List.length_append] at g5
    by_cases hlen : s.transit.queue.length < t.transit.cap
    · rw [if_pos hlen, if_pos (by omega)]
    · rw [if_neg hlen, if_neg (by omega)]
  · cases hq : s.transit.queue with
    | nil => have := a.transit; rw [hq, List.append_nil] at this; exact this
    | cons m q => simp [Table.step, Chan.recv, hq] at hn

/-- A table in use: two tunnels, a refused third one, a listener. -/
def demoTable : Table := { localId := [], transit := { cap := 2 }, manager := { cap := 1 } }
def demoGw (id : Nat) : Message := ⟨.tunnelGateway, 7, 0, be 4 id ++ be 2 1 ++ [42]⟩
def demoReply (id : Nat) : Message := ⟨.shortTunnelBuild, id, 0, [1]⟩
def demoOps : List Op := [.tryAdd 5 1, .tryAdd 5 1, .insertTunnel 2 [5, 6], .insertListener [9], .route (demoGw 6), .route (demoGw 5),
  .route (demoGw 5), .route (demoGw 8), .route (demoReply 9), .route (demoReply 9), .recv 1, .recv 1, .listen 2, .listen 2,
  .recvTransit]

example : demoTable.Empty := ⟨rfl, rfl, rfl, rfl, rfl⟩
example : (demoTable.run true demoOps).2.map (·.2) = [.tunnel 5 0, .refused, .tunnel 6 1, .listener 9 2, .routed .ok, .routed .ok,
  .routed .full, .routed .notFound, .routed .ok, .routed .ok, .message (some (demoGw 6)), .message none,
  .message (some (demoReply 9)), .message none, .message (some (demoReply 9))] := by decide +kernel
example : (hist (demoTable.run true demoOps).2).owner 5 = some 0 ∧ (hist (demoTable.run true (demoOps ++ [.dropRecv 0, .recv 1])).2).owner 5 = some 0 ∧
    ((demoTable.run false (demoOps ++ [.dropRecv 0, .recv 1])).1.route false (demoGw 5)).2 = .closed := by decide +kernel
example : addressee (demoGw 300) = some 300 ∧ addressee ⟨.tunnelData, 0, 0, [1]⟩ = none := by decide +kernel

/-! ## C52: dispatching received messages -/

/-- The message types the network database handles: DatabaseStore (1), DatabaseLookup (2) and DatabaseSearchReply (3). -/
def forNetDb (m : Message) : Bool := m.type.code == 1 || m.type.code == 2 || m.type.code == 3

/-- What is in a subsystem's queue after a batch was offered to it: nothing is sent if the batch is empty, and the whole batch is
lost if the queue is full or nobody reads it. -/
def offered (c : Chan (List (Bytes × Message))) (router : Bytes) (ms : List Message) : List (List (Bytes × Message)) :=
  if ms = [] ∨ c.closed = true ∨ c.cap ≤ c.queue.length then c.queue else c.queue ++ [ms.map fun m => (router, m)]

theorem forNetDb_eq (m : Message) : forNetDb m = decide (m.destination = .netDb) := by
  unfold forNetDb Message.destination
  cases m.type <;> rfl

theorem split_tunnel (router : Bytes) (ms : List Message) :
    ((ms.map (splitMessage router)).map (·.1)).filterMap id =
      (ms.filter fun m => !forNetDb m).map fun m => (router, m) := by
  induction ms with
  | nil => rfl
  | cons m ms ih =>
    simp only [List.map_cons, List.filterMap_cons, List.filter_cons]
    rw [forNetDb_eq m]
    cases hd : m.destination
    · rw [show splitMessage router m = (none, some (router, m)) by rw [splitMessage, hd]]
      simpa using ih
    · rw [show splitMessage router m = (some (router, m), none) by rw [splitMessage, hd]]
      simpa using ih

theorem split_netdb (router : Bytes) (ms : List Message) :
    ((ms.map (splitMessage router)).map (·.2)).filterMap id =
      (ms.filter fun m => forNetDb m).map fun m => (router, m) := by
  induction ms with
  | nil => rfl
  | cons m ms ih =>
    simp only [List.map_cons, List.filterMap_cons, List.filter_cons]
    rw [forNetDb_eq m]
    cases hd : m.destination
    · rw [show splitMessage router m = (none, some (router, m)) by rw [splitMessage, hd]]
      simpa using ih
    · rw [show splitMessage router m = (some (router, m), none) by rw [splitMessage, hd]]
      simpa using ih

theorem trySend_queue {α} (c : Chan α) (a : α) :
    (c.trySend a).1 = { c with queue := if c.closed = true ∨ c.cap ≤ c.queue.length then c.queue else c.queue ++ [a] } := by
  unfold Chan.trySend
  by_cases h1 : c.closed = true
  · rw [if_pos h1, if_pos (Or.inl h1)]
  · rw [if_neg h1]
    by_cases h2 : c.queue.length < c.cap
    · rw [if_pos h2, if_neg (by rintro (h | h); exact h1 h; omega)]
    · rw [if_neg h2, if_pos (Or.inr (by omega))]

/-- Dispatching a batch received from a router to the tunnel and network-database subsystems does not panic; the network database
is sent exactly the Database messages and the tunnel subsystem exactly the others, each in arrival order and as one batch, with the
sending router; and one subsystem's queue does not affect the other's. -/
theorem C52_batch_is_partitioned_partial (tun ndb : Chan (List (Bytes × Message))) (router : Bytes) (ms : List Message) :
    ∃ tun' ndb', (Subsystems.mk [tun, ndb]).dispatch router ms = some ⟨[tun', ndb']⟩ ∧
      tun'.queue = offered tun router (ms.filter fun m => !forNetDb m) ∧
      ndb'.queue = offered ndb router (ms.filter fun m => forNetDb m) ∧
      tun'.cap = tun.cap ∧ tun'.closed = tun.closed ∧ ndb'.cap = ndb.cap ∧ ndb'.closed = ndb.closed := by
  simp only [Subsystems.dispatch, split_tunnel, split_netdb, List.isEmpty_map, offered]
  generalize ms.filter (fun m => !forNetDb m) = a
  generalize ms.filter (fun m => forNetDb m) = b
  cases a with
  | nil =>
    cases b with
    | nil => exact ⟨tun, ndb, rfl, rfl, rfl, rfl, rfl, rfl, rfl⟩
    | cons y b =>
      refine ⟨tun, (ndb.trySend ((y :: b).map fun m => (router, m))).1, rfl, by simp, ?_, rfl, rfl, ?_, ?_⟩ <;> rw [trySend_queue]
      simp
  | cons x a =>
    cases b with
    | nil =>
      refine ⟨(tun.trySend ((x :: a).map fun m => (router, m))).1, ndb, rfl, ?_, by simp, ?_, ?_, rfl, rfl⟩ <;> rw [trySend_queue]
      simp
    | cons y b =>
      refine ⟨(tun.trySend ((x :: a).map fun m => (router, m))).1, (ndb.trySend ((y :: b).map fun m => (router, m))).1, rfl,
        ?_, ?_, ?_, ?_, ?_, ?_⟩ <;> rw [trySend_queue] <;> simp

/-- Dispatching a sequence of batches. -/
def dispatchAll (s : Subsystems) : List (Bytes × List Message) → Option Subsystems
  | [] => some s
  | b :: bs => (s.dispatch b.1 b.2).bind fun s => dispatchAll s bs

/-- Every message of a sequence of batches, with its router, in arrival order. -/
def arrivals (bs : List (Bytes × List Message)) : List (Bytes × Message) := bs.flatMap fun b => b.2.map fun m => (b.1, m)

theorem offered_flatten {c : Chan (List (Bytes × Message))} (router : Bytes) (ms : List Message) (hc : c.closed = false)
    (hr : c.queue.length < c.cap) :
    (offered c router ms).flatten = c.queue.flatten ++ ms.map (fun m => (router, m)) ∧
      (offered c router ms).length ≤ c.queue.length + 1 := by
  unfold offered
  cases ms with
  | nil => simp
  | cons m ms => simp [hc, Nat.not_le.mpr hr]

/-- As long as the queues have room for the batches, every message that arrives is delivered to exactly one of the two subsystems,
in arrival order. -/
theorem C52_every_message_delivered_in_order_partial (tun ndb : Chan (List (Bytes × Message))) (bs : List (Bytes × List Message))
    (ht : tun.closed = false) (hn : ndb.closed = false)
    (ht' : tun.queue.length + bs.length ≤ tun.cap) (hn' : ndb.queue.length + bs.length ≤ ndb.cap) :
    ∃ tun' ndb', dispatchAll ⟨[tun, ndb]⟩ bs = some ⟨[tun', ndb']⟩ ∧
      tun'.queue.flatten = tun.queue.flatten ++ (arrivals bs).filter (fun a => !forNetDb a.2) ∧
      ndb'.queue.flatten = ndb.queue.flatten ++ (arrivals bs).filter (fun a => forNetDb a.2) := by
  induction bs generalizing tun ndb with
  | nil => exact ⟨tun, ndb, rfl, by simp [arrivals], by simp [arrivals]⟩
  | cons b bs ih =>
    obtain ⟨t1, n1, e, q1, q2, c1, c2, c3, c4⟩ := C52_batch_is_partitioned_partial tun ndb b.1 b.2
    simp only [List.length_cons] at ht' hn'
    obtain ⟨f1, g1⟩ := offered_flatten (c := tun) b.1 (b.2.filter fun m => !forNetDb m) ht (by omega)
    obtain ⟨f2, g2⟩ := offered_flatten (c := ndb) b.1 (b.2.filter fun m => forNetDb m) hn (by omega)
    rw [← q1] at f1 g1
    rw [← q2] at f2 g2
    obtain ⟨t2, n2, e2, p1, p2⟩ := ih t1 n1 (c2.trans ht) (c4.trans hn) (by omega) (by omega)
    refine ⟨t2, n2, ?_, ?_, ?_⟩
    · rw [dispatchAll, e]; exact e2
    · rw [p1, f1, List.append_assoc]
      simp [arrivals, List.filter_append, List.filter_map, Function.comp_def]
    · rw [p2, f2, List.append_assoc]
      simp [arrivals, List.filter_append, List.filter_map, Function.comp_def]

/-- The property fails when a subsystem falls behind: the messages of a batch for a full queue reach neither subsystem, and the
sender is not told. -/
theorem C52_full_queue_loses_messages_violated (tun ndb : Chan (List (Bytes × Message))) (router : Bytes) (ms : List Message)
    (hms : ∀ m ∈ ms, forNetDb m = false) (hfull : tun.queue.length = tun.cap) :
    ∃ tun' ndb', (Subsystems.mk [tun, ndb]).dispatch router ms = some ⟨[tun', ndb']⟩ ∧
      tun'.queue = tun.queue ∧ ndb'.queue = ndb.queue := by
  obtain ⟨t1, n1, e, q1, q2, _⟩ := C52_batch_is_partitioned_partial tun ndb router ms
  refine ⟨t1, n1, e, ?_, ?_⟩
  · rw [q1, offered, if_pos (by omega)]
  · rw [q2, offered, if_pos (Or.inl ?_)]
    rw [List.filter_eq_nil_iff]
    intro m hm
    simp [hms m hm]

example : (Subsystems.mk [{ cap := 2 }, { cap := 2 }]).dispatch [1]
    [⟨.databaseStore, 1, 0, []⟩, ⟨.garlic, 2, 0, []⟩, ⟨.databaseSearchReply, 3, 0, []⟩, ⟨.deliveryStatus, 4, 0, []⟩] =
    some ⟨[{ cap := 2, queue := [[([1], ⟨.garlic, 2, 0, []⟩), ([1], ⟨.deliveryStatus, 4, 0, []⟩)]] },
      { cap := 2, queue := [[([1], ⟨.databaseStore, 1, 0, []⟩), ([1], ⟨.databaseSearchReply, 3, 0, []⟩)]] }]⟩ := by
  decide +kernel

/-! ## C53: shutdown -/

/-- How many subsystems had registered when shutdown was first requested. -/
def registered (ops : List ShutOp) : Nat := (ops.takeWhile (· != .request)).count .handle

/-- Subsystem `i` (counting from 0) ended some time after it had registered. -/
def ended (i : Nat) (ops : List ShutOp) : Prop := (List.replicate (i + 1) ShutOp.handle ++ [ShutOp.drop i]).Sublist ops

/-- Subsystem `i` saw the request after shutdown had been requested. -/
def polled (i : Nat) (ops : List ShutOp) : Prop := [ShutOp.request, ShutOp.pollSub i].Sublist ops

/-- Subsystem `i` saw the request after shutdown had been requested, and then acknowledged it. -/
def acknowledged (i : Nat) (ops : List ShutOp) : Prop := [ShutOp.request, ShutOp.pollSub i, ShutOp.ack i].Sublist ops

theorem sublist_snoc {α} {l m : List α} {x o : α} :
    (l ++ [x]).Sublist (m ++ [o]) ↔ (l ++ [x]).Sublist m ∨ (x = o ∧ l.Sublist m) := by
  constructor
  · intro h
    have h := h.reverse
    simp only [List.reverse_append, List.reverse_cons, List.reverse_nil, List.nil_append, List.singleton_append] at h
    cases h with
    | cons _ h =>
      left
      have := h.reverse
      simpa using this
    | cons_cons _ h =>
      right
      have := h.reverse
      exact ⟨rfl, by simpa using this⟩
  · rintro (h | ⟨rfl, h⟩)
    · exact h.trans (List.sublist_append_left ..)
    · exact h.append (List.Sublist.refl _)

theorem registered_snoc (ops : List ShutOp) (o : ShutOp) :
    registered (ops ++ [o]) = if .request ∈ ops then registered ops else registered ops + if o = .handle then 1 else 0 := by
  unfold registered
  induction ops with
  | nil => cases o <;> rfl
  | cons p ops ih =>
    by_cases hp : p = .request
    · subst hp; simp
    · have : (p != ShutOp.request) = true := by simpa using hp
      simp only [List.cons_append, List.takeWhile_cons, this, if_true, List.mem_cons, Ne.symm hp, false_or]
      rw [List.count_cons, List.count_cons, ih]
      split <;> omega

theorem registered_le (ops : List ShutOp) : registered ops ≤ ops.count .handle :=
  (List.takeWhile_sublist _).count_le _

theorem registered_all {ops : List ShutOp} (h : .request ∉ ops) : registered ops = ops.count .handle := by
  induction ops with
  | nil => rfl
  | cons o ops ih =>
    rw [List.mem_cons, not_or] at h
    have := ih h.2
    unfold registered at this ⊢
    rw [List.takeWhile_cons, if_pos (by simpa using Ne.symm h.1), List.count_cons, List.count_cons, this]

theorem ended_snoc (i : Nat) (ops : List ShutOp) (o : ShutOp) :
    ended i (ops ++ [o]) ↔ ended i ops ∨ (o = .drop i ∧ i < ops.count .handle) := by
  unfold ended
  rw [sublist_snoc, List.replicate_sublist_iff]
  constructor <;> rintro (h | ⟨h1, h2⟩)
  · exact Or.inl h
  · exact Or.inr ⟨h1.symm, h2⟩
  · exact Or.inl h
  · exact Or.inr ⟨h1.symm, h2⟩

theorem polled_snoc (i : Nat) (ops : List ShutOp) (o : ShutOp) :
    polled i (ops ++ [o]) ↔ polled i ops ∨ (o = .pollSub i ∧ .request ∈ ops) := by
  unfold polled
  have := sublist_snoc (l := [ShutOp.request]) (m := ops) (x := .pollSub i) (o := o)
  rw [List.singleton_sublist] at this
  refine Iff.trans this ?_
  constructor <;> rintro (h | ⟨h1, h2⟩)
  · exact Or.inl h
  · exact Or.inr ⟨h1.symm, h2⟩
  · exact Or.inl h
  · exact Or.inr ⟨h1.symm, h2⟩

theorem acknowledged_snoc (i : Nat) (ops : List ShutOp) (o : ShutOp) :
    acknowledged i (ops ++ [o]) ↔ acknowledged i ops ∨ (o = .ack i ∧ polled i ops) := by
  unfold acknowledged polled
  have := sublist_snoc (l := [ShutOp.request, .pollSub i]) (m := ops) (x := .ack i) (o := o)
  refine Iff.trans this ?_
  constructor <;> rintro (h | ⟨h1, h2⟩)
  · exact Or.inl h
  · exact Or.inr ⟨h1.symm, h2⟩
  · exact Or.inl h
  · exact Or.inr ⟨h1.symm, h2⟩

theorem ended_registered {i : Nat} {ops : List ShutOp} (h : ended i ops) : i < ops.count .handle := by
  have : (List.replicate (i + 1) ShutOp.handle).Sublist ops := (List.sublist_append_left ..).trans h
  rw [List.replicate_sublist_iff] at this
  omega

theorem polled_requested {i : Nat} {ops : List ShutOp} (h : polled i ops) : .request ∈ ops := by
  exact h.subset (by simp)

theorem acknowledged_polled {i : Nat} {ops : List ShutOp} (h : acknowledged i ops) : polled i ops := by
  refine List.Sublist.trans ?_ h
  exact List.sublist_append_left [ShutOp.request, .pollSub i] [.ack i]

/-- What the state of subsystem `i` says about the history. -/
def SubOk (ops : List ShutOp) (i : Nat) : Sub → Prop
  | .running => ¬ ended i ops ∧ ¬ (.request ∈ ops ∧ i < registered ops)
  | .asked => ¬ ended i ops ∧ .request ∈ ops ∧ i < registered ops ∧ ¬ polled i ops
  | .stopping => ¬ ended i ops ∧ .request ∈ ops ∧ i < registered ops ∧ polled i ops ∧ ¬ acknowledged i ops
  | .stopped => .request ∈ ops ∧ i < registered ops ∧ acknowledged i ops
  | .gone => ended i ops

structure ShutOk (ops : List ShutOp) (s : Shutdown) : Prop where
  count : s.count = ops.count .request
  len : s.subs.length = ops.count .handle
  down : s.shuttingDown = true ↔ .request ∈ ops
  before : .request ∉ ops → s.handles = List.range (ops.count .handle) ∧ s.futures = []
  sub : ∀ i x, s.subs[i]? = some x → SubOk ops i x
  fut : ∀ i ∈ s.futures, i < registered ops
  gone : .request ∈ ops → ∀ i < registered ops, i ∉ s.futures → s.done i = true

theorem asks_subs (l : List Nat) (s : Shutdown) (j : Nat) :
    (l.foldl Shutdown.ask s).subs[j]? = (if j ∈ l ∧ s.subs[j]? = some .running then some .asked else s.subs[j]?) ∧
    (j ∈ (l.foldl Shutdown.ask s).futures ↔ j ∈ s.futures ∨ (j ∈ l ∧ s.subs[j]? = some .running)) ∧
    (l.foldl Shutdown.ask s).subs.length = s.subs.length ∧ (l.foldl Shutdown.ask s).count = s.count ∧
    (l.foldl Shutdown.ask s).handles = s.handles ∧ (l.foldl Shutdown.ask s).shuttingDown = s.shuttingDown := by
  induction l generalizing s with
  | nil => simp
  | cons i l ih =>
    simp only [List.foldl_cons]
    obtain ⟨h1, h2, h3, h4, h5, h6⟩ := ih (s.ask i)
    by_cases hi : s.subs[i]? = some .running
    · have hlt : i < s.subs.length := by
        rcases Nat.lt_or_ge i s.subs.length with h | h
        · exact h
        · rw [List.getElem?_eq_none h] at hi; cases hi
      have e : s.ask i = { s with subs := s.subs.set i .asked, futures := s.futures ++ [i] } := by
        unfold Shutdown.ask; rw [hi]
      have e1 : (s.ask i).subs = s.subs.set i .asked := by rw [e]
      have e2 : (s.ask i).futures = s.futures ++ [i] := by rw [e]
      rw [h1, h2, h3, h4, h5, h6, e1, e2]
      refine ⟨?_, ?_, by simp, by rw [e], by rw [e], by rw [e]⟩
      · by_cases hij : i = j
        · subst hij; rw [List.getElem?_set_self hlt, hi]; simp
        · rw [List.getElem?_set_ne hij]; simp [List.mem_cons, Ne.symm hij]
      · by_cases hij : i = j
        · subst hij; rw [List.getElem?_set_self hlt, hi]; simp
        · rw [List.getElem?_set_ne hij]; simp [List.mem_cons, Ne.symm hij]
    · have e : s.ask i = s := by
        unfold Shutdown.ask
        split
        · rename_i h; exact absurd h hi
        · rfl
      rw [h1, h2, h3, h4, h5, h6, e]
      refine ⟨?_, ?_, rfl, rfl, rfl, rfl⟩
      · by_cases hij : i = j
        · subst hij; simp [hi]
        · simp [List.mem_cons, Ne.symm hij]
      · by_cases hij : i = j
        · subst hij; simp [hi]
        · simp [List.mem_cons, Ne.symm hij]

/-- Operations that do nothing to subsystem `i`. -/
theorem SubOk.keep {ops : List ShutOp} {o : ShutOp} {i : Nat} {x : Sub} (h : SubOk ops i x) (hi : i < ops.count .handle)
    (h1 : o ≠ .request) (h2 : o = .pollSub i → x ≠ .asked) (h3 : o = .ack i → x ≠ .stopping)
    (h4 : o = .drop i → x = .stopped ∨ x = .gone) : SubOk (ops ++ [o]) i x := by
  have hr : ShutOp.request ∈ ops ++ [o] ↔ ShutOp.request ∈ ops := by simp [Ne.symm h1]
  have hreg : ShutOp.request ∈ ops → registered (ops ++ [o]) = registered ops := fun h => by rw [registered_snoc, if_pos h]
  cases x with
  | running =>
    refine ⟨?_, ?_⟩
    · rw [ended_snoc]
      rintro (h' | ⟨h', _⟩)
      · exact h.1 h'
      · rcases h4 h' with h | h <;> cases h
    · rw [hr]
      rintro ⟨h', h''⟩
      rw [hreg h'] at h''
      exact h.2 ⟨h', h''⟩
  | asked =>
    obtain ⟨g1, g2, g3, g4⟩ := h
    refine ⟨?_, hr.mpr g2, by rw [hreg g2]; exact g3, ?_⟩
    · rw [ended_snoc]
      rintro (h' | ⟨h', _⟩)
      · exact g1 h'
      · rcases h4 h' with h | h <;> cases h
    · rw [polled_snoc]
      rintro (h' | ⟨h', _⟩)
      · exact g4 h'
      · exact h2 h' rfl
  | stopping =>
    obtain ⟨g1, g2, g3, g4, g5⟩ := h
    refine ⟨?_, hr.mpr g2, by rw [hreg g2]; exact g3, ?_, ?_⟩
    · rw [ended_snoc]
      rintro (h' | ⟨h', _⟩)
      · exact g1 h'
      · rcases h4 h' with h | h <;> cases h
    · rw [polled_snoc]; exact Or.inl g4
    · rw [acknowledged_snoc]
      rintro (h' | ⟨h', _⟩)
      · exact g5 h'
      · exact h3 h' rfl
  | stopped =>
    obtain ⟨g1, g2, g3⟩ := h
    exact ⟨hr.mpr g1, by rw [hreg g1]; exact g2, by rw [acknowledged_snoc]; exact Or.inl g3⟩
  | gone => show ended _ _; rw [ended_snoc]; exact Or.inl h

theorem getElem?_lt {α} {l : List α} {i : Nat} {x : α} (h : l[i]? = some x) : i < l.length := by
  rcases Nat.lt_or_ge i l.length with h' | h'
  · exact h'
  · rw [List.getElem?_eq_none h'] at h; cases h

/-- An operation on subsystem `k` that sets its state to `y`, if it keeps everything else. -/
theorem ShutOk.set {ops : List ShutOp} {s : Shutdown} (a : ShutOk ops s) {o : ShutOp} {k : Nat} {y : Sub}
    (h1 : o ≠ .request) (h0 : o ≠ .handle) (hk : o = .pollSub k ∨ o = .ack k ∨ o = .drop k)
    (hy : k < s.subs.length → SubOk (ops ++ [o]) k y) (hd : s.done k = true → y = .stopped ∨ y = .gone) :
    ShutOk (ops ++ [o]) { s with subs := s.subs.set k y } := by
  have hr : ShutOp.request ∈ ops ++ [o] ↔ ShutOp.request ∈ ops := by simp [Ne.symm h1]
  have hreg : registered (ops ++ [o]) = registered ops := by
    rw [registered_snoc, if_neg h0]; split <;> omega
  have hne : ∀ i, i ≠ k → o ≠ .pollSub i ∧ o ≠ .ack i ∧ o ≠ .drop i := by
    intro i hi
    rcases hk with h | h | h <;> subst h <;> simp [Ne.symm hi]
  refine ⟨?_, ?_, ?_, ?_, ?_, ?_, ?_⟩
  · show s.count = _; rw [a.count, List.count_append, List.count_singleton, if_neg (by simpa using h1)]; rfl
  · show (s.subs.set k y).length = _
    rw [List.length_set, a.len, List.count_append, List.count_singleton, if_neg (by simpa using h0)]; rfl
  · exact a.down.trans hr.symm
  · intro h
    rw [hr] at h
    obtain ⟨g1, g2⟩ := a.before h
    refine ⟨?_, g2⟩
    show s.handles = _
    rw [g1, List.count_append, List.count_singleton, if_neg (by simpa using h0)]; rfl
  · intro i x hx
    have hx : (s.subs.set k y)[i]? = some x := hx
    by_cases hik : i = k
    · subst hik
      have hlt : i < s.subs.length := by have := getElem?_lt hx; rwa [List.length_set] at this
      rw [List.getElem?_set_self hlt] at hx
      cases hx
      exact hy hlt
    · rw [List.getElem?_set_ne (Ne.symm hik)] at hx
      obtain ⟨n1, n2, n3⟩ := hne i hik
      exact (a.sub i x hx).keep (by rw [← a.len]; exact getElem?_lt hx) h1 (fun h => absurd h n1) (fun h => absurd h n2)
        (fun h => absurd h n3)
  · rw [hreg]; exact a.fut
  · intro h i hi hf
    rw [hr] at h
    rw [hreg] at hi
    have hdone := a.gone h i hi hf
    have hlt : i < s.subs.length := by
      rw [a.len]; exact Nat.lt_of_lt_of_le hi (registered_le ops)
    show ((s.subs.set k y)[i]? == some .stopped || (s.subs.set k y)[i]? == some .gone) = true
    by_cases hik : i = k
    · subst hik
      rw [List.getElem?_set_self hlt]
      rcases hd hdone with h | h <;> subst h <;> rfl
    · rw [List.getElem?_set_ne (Ne.symm hik)]
      exact hdone

/-- An operation on subsystem `k` that changes nothing. -/
theorem ShutOk.same {ops : List ShutOp} {s : Shutdown} (a : ShutOk ops s) {o : ShutOp}
    (h1 : o ≠ .request) (h0 : o ≠ .handle) (hs : ∀ i x, s.subs[i]? = some x → SubOk (ops ++ [o]) i x) :
    ShutOk (ops ++ [o]) s := by
  have hr : ShutOp.request ∈ ops ++ [o] ↔ ShutOp.request ∈ ops := by simp [Ne.symm h1]
  have hreg : registered (ops ++ [o]) = registered ops := by
    rw [registered_snoc, if_neg h0]; split <;> omega
  refine ⟨?_, ?_, a.down.trans hr.symm, ?_, hs, by rw [hreg]; exact a.fut, ?_⟩
  · rw [a.count, List.count_append, List.count_singleton, if_neg (by simpa using h1)]; rfl
  · rw [a.len, List.count_append, List.count_singleton, if_neg (by simpa using h0)]; rfl
  · intro h
    rw [hr] at h
    obtain ⟨g1, g2⟩ := a.before h
    refine ⟨?_, g2⟩
    rw [g1, List.count_append, List.count_singleton, if_neg (by simpa using h0)]; rfl
  · rw [hr, hreg]; exact a.gone

theorem ShutOk.step {ops : List ShutOp} {s : Shutdown} (a : ShutOk ops s) (o : ShutOp) : ShutOk (ops ++ [o]) (s.step o) := by
  have lt : ∀ {i x}, s.subs[i]? = some x → i < ops.count .handle := fun h => by rw [← a.len]; exact getElem?_lt h
  cases o with
  | handle =>
    have hr : ShutOp.request ∈ ops ++ [ShutOp.handle] ↔ ShutOp.request ∈ ops := by simp
    have hc : (ops ++ [ShutOp.handle]).count ShutOp.handle = ops.count .handle + 1 := by simp
    refine ⟨?_, ?_, a.down.trans hr.symm, ?_, ?_, ?_, ?_⟩
    · show s.count = _; rw [a.count]; simp
    · show (s.subs ++ [Sub.running]).length = _; rw [hc, List.length_append, a.len]; rfl
    · intro h
      rw [hr] at h
      obtain ⟨g1, g2⟩ := a.before h
      refine ⟨?_, g2⟩
      show s.handles ++ [s.subs.length] = _
      rw [hc, g1, a.len, List.range_succ]
    · intro i x hx
      have hx : (s.subs ++ [Sub.running])[i]? = some x := hx
      by_cases hi : i < s.subs.length
      · rw [List.getElem?_append_left hi] at hx
        exact (a.sub i x hx).keep (lt hx) (by simp) (by simp) (by simp) (by simp)
      · have := getElem?_lt hx
        rw [List.length_append] at this
        have hi : i = s.subs.length := by simp at this; omega
        subst hi
        simp at hx
        subst hx
        refine ⟨?_, ?_⟩
        · rw [ended_snoc, a.len]
          rintro (h | ⟨h, _⟩)
          · exact absurd (ended_registered h) (Nat.lt_irrefl _)
          · cases h
        · rw [hr]
          rintro ⟨h, h'⟩
          rw [registered_snoc, if_pos h, a.len] at h'
          exact absurd (registered_le ops) (by omega)
    · intro i hi
      have := a.fut i hi
      rw [registered_snoc]; split <;> omega
    · rw [hr]
      intro h i hi hf
      rw [registered_snoc, if_pos h] at hi
      have hd := a.gone h i hi hf
      have hlt : i < s.subs.length := by rw [a.len]; exact Nat.lt_of_lt_of_le hi (registered_le ops)
      show ((s.subs ++ [Sub.running])[i]? == some .stopped || (s.subs ++ [Sub.running])[i]? == some .gone) = true
      rw [List.getElem?_append_left hlt]
      exact hd
  | request =>
    have hin : ShutOp.request ∈ ops ++ [ShutOp.request] := by simp
    by_cases h : ShutOp.request ∈ ops
    · have hcount : ¬ s.count + 1 = 1 := by
        rw [a.count]
        have := List.count_pos_iff.mpr h
        omega
      have e : s.step .request = { s with count := s.count + 1 } := by
        show (if s.count + 1 = 1 then _ else _) = _
        rw [if_neg hcount]
      have hreg : registered (ops ++ [ShutOp.request]) = registered ops := by rw [registered_snoc, if_pos h]
      rw [e]
      refine ⟨?_, ?_, ?_, fun h' => absurd hin h', ?_, ?_, ?_⟩
      · show s.count + 1 = _; rw [a.count]; simp
      · show s.subs.length = _; rw [a.len]; simp
      · exact ⟨fun _ => hin, fun _ => a.down.mpr h⟩
      · intro i x hx
        have := a.sub i x hx
        cases x with
        | running =>
          refine ⟨?_, ?_⟩
          · rw [ended_snoc]; rintro (h' | ⟨h', _⟩)
            · exact this.1 h'
            · cases h'
          · rw [hreg]; exact fun h' => this.2 ⟨h, h'.2⟩
        | asked =>
          obtain ⟨g1, g2, g3, g4⟩ := this
          refine ⟨?_, hin, by rw [hreg]; exact g3, ?_⟩
          · rw [ended_snoc]; rintro (h' | ⟨h', _⟩)
            · exact g1 h'
            · cases h'
          · rw [polled_snoc]; rintro (h' | ⟨h', _⟩)
            · exact g4 h'
            · cases h'
        | stopping =>
          obtain ⟨g1, g2, g3, g4, g5⟩ := this
          refine ⟨?_, hin, by rw [hreg]; exact g3, by rw [polled_snoc]; exact Or.inl g4, ?_⟩
          · rw [ended_snoc]; rintro (h' | ⟨h', _⟩)
            · exact g1 h'
            · cases h'
          · rw [acknowledged_snoc]; rintro (h' | ⟨h', _⟩)
            · exact g5 h'
            · cases h'
        | stopped =>
          obtain ⟨g1, g2, g3⟩ := this
          exact ⟨hin, by rw [hreg]; exact g2, by rw [acknowledged_snoc]; exact Or.inl g3⟩
        | gone => show ended _ _; rw [ended_snoc]; exact Or.inl this
      · rw [hreg]; exact a.fut
      · rw [hreg]; exact fun _ => a.gone h
    · obtain ⟨hh, hf⟩ := a.before h
      have hcount : s.count = 0 := by rw [a.count]; exact List.count_eq_zero.mpr h
      have e : s.step .request =
          (List.range (ops.count .handle)).foldl Shutdown.ask { s with count := s.count + 1, shuttingDown := true, handles := [] } := by
        show (if s.count + 1 = 1 then _ else _) = _
        rw [if_pos (by omega), Shutdown.begin, hh]
      have hreg : registered (ops ++ [ShutOp.request]) = ops.count .handle := by
        rw [registered_snoc, if_neg h, registered_all h]; rfl
      have key := asks_subs (List.range (ops.count .handle))
        { s with count := s.count + 1, shuttingDown := true, handles := [] }
      rw [e]
      refine ⟨?_, ?_, ?_, fun h' => absurd hin h', ?_, ?_, ?_⟩
      · rw [(key 0).2.2.2.1]; show s.count + 1 = _; rw [a.count]; simp
      · rw [(key 0).2.2.1]; show s.subs.length = _; rw [a.len]; simp
      · rw [(key 0).2.2.2.2.2]; exact ⟨fun _ => hin, fun _ => rfl⟩
      · intro i x hx
        rw [(key i).1] at hx
        have hx : (if i ∈ List.range (ops.count .handle) ∧ s.subs[i]? = some .running then some Sub.asked else s.subs[i]?) = some x := hx
        by_cases hc : i ∈ List.range (ops.count .handle) ∧ s.subs[i]? = some .running
        · rw [if_pos hc] at hx
          cases hx
          have := a.sub i _ hc.2
          refine ⟨?_, hin, by rw [hreg]; exact List.mem_range.mp hc.1, ?_⟩
          · rw [ended_snoc]; rintro (h' | ⟨h', _⟩)
            · exact this.1 h'
            · cases h'
          · rw [polled_snoc]; rintro (h' | ⟨h', _⟩)
            · exact h (polled_requested h')
            · cases h'
        · rw [if_neg hc] at hx
          have := a.sub i x hx
          cases x with
          | running => exact absurd ⟨List.mem_range.mpr (lt hx), hx⟩ hc
          | asked => exact absurd this.2.1 h
          | stopping => exact absurd this.2.1 h
          | stopped => exact absurd this.1 h
          | gone => show ended _ _; rw [ended_snoc]; exact Or.inl this
      · intro i hi
        rw [(key i).2.1] at hi
        have hi : i ∈ s.futures ∨ (i ∈ List.range (ops.count .handle) ∧ _) := hi
        rw [hf] at hi
        rw [hreg]
        rcases hi with hi | hi
        · cases hi
        · exact List.mem_range.mp hi.1
      · intro _ i hi hnf
        rw [(key i).2.1] at hnf
        rw [hreg] at hi
        have hnr : s.subs[i]? ≠ some .running := fun hrun => hnf (Or.inr ⟨List.mem_range.mpr hi, hrun⟩)
        have hlt : i < s.subs.length := by rw [a.len]; exact hi
        have hx := List.getElem?_eq_getElem hlt
        have hok := a.sub i _ hx
        show (_ == _ || _ == _) = true
        rw [(key i).1, if_neg (fun hc => hnr hc.2)]
        show (s.subs[i]? == some .stopped || s.subs[i]? == some .gone) = true
        rw [hx] at hnr ⊢
        generalize s.subs[i] = x at *
        cases x with
        | running => exact absurd rfl hnr
        | asked => exact absurd hok.2.1 h
        | stopping => exact absurd hok.2.1 h
        | stopped => exact absurd hok.1 h
        | gone => rfl
  | pollSub k =>
    cases hk : s.subs[k]? with
    | none =>
      rw [show s.step (.pollSub k) = s by simp [Shutdown.step, Shutdown.pollSub, hk]]
      refine a.same (by simp) (by simp) fun i x hx => (a.sub i x hx).keep (lt hx) (by simp) ?_ (by simp) (by simp)
      rintro h rfl; cases h; rw [hk] at hx; cases hx
    | some y =>
      by_cases hy : y = .asked
      · subst hy
        rw [show s.step (.pollSub k) = { s with subs := s.subs.set k .stopping } by simp [Shutdown.step, Shutdown.pollSub, hk]]
        have := a.sub k _ hk
        obtain ⟨g1, g2, g3, g4⟩ := this
        refine a.set (by simp) (by simp) (Or.inl rfl) (fun _ => ⟨?_, by simp [g2], ?_, ?_, ?_⟩) ?_
        · rw [ended_snoc]; rintro (h | ⟨h, _⟩)
          · exact g1 h
          · cases h
        · rw [registered_snoc, if_pos g2]; exact g3
        · rw [polled_snoc]; exact Or.inr ⟨rfl, g2⟩
        · rw [acknowledged_snoc]; rintro (h | ⟨h, _⟩)
          · exact g4 (acknowledged_polled h)
          · cases h
        · intro h; simp [Shutdown.done, hk] at h
      · rw [show s.step (.pollSub k) = s by cases y <;> simp_all [Shutdown.step, Shutdown.pollSub]]
        refine a.same (by simp) (by simp) fun i x hx => (a.sub i x hx).keep (lt hx) (by simp) ?_ (by simp) (by simp)
        rintro h rfl; cases h; rw [hk] at hx; cases hx; exact hy rfl
  | ack k =>
    cases hk : s.subs[k]? with
    | none =>
      rw [show s.step (.ack k) = s by simp [Shutdown.step, Shutdown.ack, hk]]
      refine a.same (by simp) (by simp) fun i x hx => (a.sub i x hx).keep (lt hx) (by simp) (by simp) ?_ (by simp)
      rintro h rfl; cases h; rw [hk] at hx; cases hx
    | some y =>
      by_cases hy : y = .stopping
      · subst hy
        rw [show s.step (.ack k) = { s with subs := s.subs.set k .stopped } by simp [Shutdown.step, Shutdown.ack, hk]]
        obtain ⟨g1, g2, g3, g4, g5⟩ := a.sub k _ hk
        refine a.set (by simp) (by simp) (Or.inr (Or.inl rfl)) (fun _ => ⟨by simp [g2], ?_, ?_⟩) (fun _ => Or.inl rfl)
        · rw [registered_snoc, if_pos g2]; exact g3
        · rw [acknowledged_snoc]; exact Or.inr ⟨rfl, g4⟩
      · rw [show s.step (.ack k) = s by cases y <;> simp_all [Shutdown.step, Shutdown.ack]]
        refine a.same (by simp) (by simp) fun i x hx => (a.sub i x hx).keep (lt hx) (by simp) (by simp) ?_ (by simp)
        rintro h rfl; cases h; rw [hk] at hx; cases hx; exact hy rfl
  | drop k =>
    cases hk : s.subs[k]? with
    | none =>
      rw [show s.step (.drop k) = s by simp [Shutdown.step, Shutdown.drop, hk]]
      refine a.same (by simp) (by simp) fun i x hx => (a.sub i x hx).keep (lt hx) (by simp) (by simp) (by simp) ?_
      intro h; cases h; rw [hk] at hx; cases hx
    | some y =>
      by_cases hy : y = .stopped
      · subst hy
        rw [show s.step (.drop k) = s by simp [Shutdown.step, Shutdown.drop, hk]]
        refine a.same (by simp) (by simp) fun i x hx => (a.sub i x hx).keep (lt hx) (by simp) (by simp) (by simp) ?_
        intro h; cases h; rw [hk] at hx; cases hx; exact Or.inl rfl
      · rw [show s.step (.drop k) = { s with subs := s.subs.set k .gone } by cases y <;> simp_all [Shutdown.step, Shutdown.drop]]
        refine a.set (by simp) (by simp) (Or.inr (Or.inr rfl)) (fun _ => ?_) (fun _ => Or.inr rfl)
        show ended _ _
        rw [ended_snoc]
        exact Or.inr ⟨rfl, lt hk⟩
  | poll =>
    have a' : ShutOk (ops ++ [ShutOp.poll]) s := a.same (by simp) (by simp) fun i x hx =>
      (a.sub i x hx).keep (lt hx) (by simp) (by simp) (by simp) (by simp)
    show ShutOk _ s.pollRouter.1
    unfold Shutdown.pollRouter
    split
    · exact a'
    · refine ⟨a'.count, a'.len, a'.down, ?_, a'.sub, ?_, ?_⟩
      · intro h
        obtain ⟨g1, g2⟩ := a'.before h
        refine ⟨g1, ?_⟩
        show s.futures.filter _ = []
        rw [g2]; rfl
      · intro i hi
        exact a'.fut i (List.mem_filter.mp hi).1
      · intro h i hi hnf
        by_cases hf : i ∈ s.futures
        · have hnf : i ∉ s.futures.filter (fun i => !s.done i) := hnf
          rw [List.mem_filter] at hnf
          show s.done i = true
          cases hd : s.done i with
          | true => rfl
          | false => exact absurd ⟨hf, by simp [hd]⟩ hnf
        · exact a'.gone h i hi hf

theorem ShutOk.run (ops : List ShutOp) : ShutOk ops (Shutdown.run ops) := by
  induction ops using List.reverseRecOn with
  | nil =>
    refine ⟨rfl, rfl, by simp [Shutdown.run], fun _ => ⟨rfl, rfl⟩, ?_, ?_, ?_⟩
    · intro i x hx; simp [Shutdown.run] at hx
    · intro i hi; simp [Shutdown.run] at hi
    · intro h; cases h
  | append_singleton ops o ih => rw [Shutdown.run, List.foldl_append]; exact ih.step o

/-- After any history, the router reports that it has shut down if and only if shutdown was requested twice, or it was requested
and every subsystem that had registered by then has acknowledged the request or ended. -/
theorem C53_complete_iff_every_subsystem_finished (ops : List ShutOp) :
    (Shutdown.run ops).pollRouter.2 = true ↔
      2 ≤ ops.count .request ∨
      (.request ∈ ops ∧ ∀ i < registered ops, acknowledged i ops ∨ ended i ops) := by
  have a := ShutOk.run ops
  generalize Shutdown.run ops = s at a
  unfold Shutdown.pollRouter
  rw [a.count]
  by_cases h2 : ops.count .request ≥ 2
  · rw [if_pos h2]
    exact ⟨fun _ => Or.inl h2, fun _ => rfl⟩
  rw [if_neg h2]
  unfold Shutdown.poll
  simp only [Bool.and_eq_true, List.isEmpty_iff, List.filter_eq_nil_iff]
  have lt : ∀ {i}, i < registered ops → i < s.subs.length := fun h => by
    rw [a.len]; exact Nat.lt_of_lt_of_le h (registered_le ops)
  constructor
  · rintro ⟨hf, hd⟩
    have hreq := a.down.mp hd
    refine Or.inr ⟨hreq, fun i hi => ?_⟩
    have hdone : s.done i = true := by
      by_cases hif : i ∈ s.futures
      · simpa using hf i hif
      · exact a.gone hreq i hi hif
    have hx := List.getElem?_eq_getElem (lt hi)
    have hok := a.sub i _ hx
    unfold Shutdown.done at hdone
    rw [hx] at hdone
    generalize s.subs[i]'(lt hi) = x at *
    cases x with
    | running => cases hdone
    | asked => cases hdone
    | stopping => cases hdone
    | stopped => exact Or.inl hok.2.2
    | gone => exact Or.inr hok
  · rintro (h | ⟨hreq, hall⟩)
    · exact absurd h h2
    · refine ⟨fun i hi => ?_, a.down.mpr hreq⟩
      have hlt := a.fut i hi
      have hx := List.getElem?_eq_getElem (lt hlt)
      have hok := a.sub i _ hx
      have hfin := hall i hlt
      suffices s.done i = true by simp [this]
      unfold Shutdown.done
      rw [hx]
      generalize s.subs[i]'(lt hlt) = x at *
      cases x with
      | running => exact absurd ⟨hreq, hlt⟩ hok.2
      | asked =>
        rcases hfin with h | h
        · exact absurd (acknowledged_polled h) hok.2.2.2
        · exact absurd h hok.1
      | stopping =>
        rcases hfin with h | h
        · exact absurd h hok.2.2.2.2
        · exact absurd h hok.1
      | stopped => rfl
      | gone => rfl

/-- Two subsystems, one acknowledges and one ends; a third registers too late to be waited for. -/
example : (Shutdown.run [.handle, .handle, .pollSub 0, .request, .handle, .pollSub 0, .ack 0]).pollRouter.2 = false ∧
    (Shutdown.run [.handle, .handle, .pollSub 0, .request, .handle, .pollSub 0, .ack 0, .poll, .drop 1]).pollRouter.2 = true ∧
    (Shutdown.run [.handle, .handle, .request, .ack 0, .ack 1]).pollRouter.2 = false ∧
    (Shutdown.run [.handle, .request, .request]).pollRouter.2 = true := by decide +kernel

end Emissary.Routing
