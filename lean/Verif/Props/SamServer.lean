import Verif.Model.SamServer
import Verif.Props.SamHost
import Mathlib.Data.List.Perm.Basic
/-!
# The sessions of the SAM server

* C168: no two sessions share a name or a destination.
* C169: a name and a destination can be used again once their session is gone.
* C170: commands for streams are passed to their session.
* C171: what a client sends does not bring the server down.
-/
namespace Emissary.SamServer

open Emissary.SamParser (Str)

variable {D : Type} [DecidableEq D]

/-! ## Specification -/

/-- The sessions that there are: those that wait for tunnels and those in use. -/
def State.live (s : State D) : List (Str × D) := s.pend ++ s.act

/-- The names and the destinations that sessions were asked for with. -/
def asked : Op D → Option (Str × D)
  | .create _ id d _ => some (id, d)
  | _ => none

/-! ## Lemmas -/

theorem mem_ins {α : Type} [DecidableEq α] (a b : α) (l : List α) : a ∈ ins b l ↔ a = b ∨ a ∈ l := by
  unfold ins
  split <;> grind

theorem mem_rem {α : Type} [DecidableEq α] (a b : α) (l : List α) : a ∈ rem b l ↔ a ∈ l ∧ a ≠ b := by
  unfold rem
  simp

theorem erase_perm {α : Type} {l : List α} {k : Nat} {a : α} (h : l[k]? = some a) : l.Perm (a :: l.eraseIdx k) := by
  obtain ⟨hk, e⟩ := List.getElem?_eq_some_iff.mp h
  exact e ▸ (List.getElem_cons_eraseIdx_perm hk).symm

structure Inv (s : State D) : Prop where
  pend : ∀ p ∈ s.pend, p.1 ∈ s.pending
  act : ∀ p ∈ s.act, p.1 ∈ s.active
  disj : ∀ id ∈ s.active, id ∉ s.pending
  dest : ∀ p ∈ s.live, s.idDest.get p.1 = some p.2
  dests : ∀ id d, s.idDest.get id = some d → d ∈ s.dests
  inj : ∀ a b d, s.idDest.get a = some d → s.idDest.get b = some d → a = b
  keys : ∀ id d, s.idDest.get id = some d → id ∈ s.active ∨ id ∈ s.pending
  ids : (s.live.map Prod.fst).Nodup
  used : s.running = true → ∀ id ∈ s.active, ∃ d, (id, d) ∈ s.act
  down : s.running = false → s.live = []

theorem Inv.of_core {s t : State D} (h : Inv s) (h1 : t.pend = s.pend) (h2 : t.act = s.act) (h3 : t.pending = s.pending) (h4 : t.active = s.active)
    (h5 : t.idDest = s.idDest) (h6 : t.dests = s.dests) (h7 : t.running = s.running) : Inv t := by
  obtain ⟨a, b, c, d, e, f, g, i, j, k⟩ := h
  unfold State.live at d i k
  constructor <;> (try unfold State.live) <;> (try rw [h1]) <;> (try rw [h2]) <;> (try rw [h3]) <;> (try rw [h4]) <;> (try rw [h5]) <;> (try rw [h6]) <;> (try rw [h7]) <;> assumption

theorem Inv.log {s : State D} (h : Inv s) (o : Out D) : Inv (s.log o) := h.of_core rfl rfl rfl rfl rfl rfl rfl

theorem Inv.send {s : State D} (h : Inv s) (id : Str) (sock : Sock) (w : What D) (room : Bool) : Inv (s.send id sock w room) := by
  unfold State.send
  split <;> exact h.log _

theorem Inv.stop {s : State D} (h : Inv s) : Inv s.stop := by
  refine ⟨?_, ?_, h.disj, ?_, h.dests, h.inj, h.keys, ?_, ?_, ?_⟩ <;> simp [State.stop, State.live]

theorem Inv.create {s : State D} (h : Inv s) (hr : s.running = true) (sock : Sock) (id : Str) (d : D) (pool : Bool) : Inv (s.create sock id d pool) := by
  unfold State.create
  split
  · exact h.log _
  rename_i h1
  split
  · exact h.log _
  rename_i h2
  split
  · have hn : s.idDest.get id = none := by
      cases e : s.idDest.get id with
      | none => rfl
      | some x => exact absurd (h.keys id x e) h1
    have hnl : ∀ p ∈ s.live, p.1 ≠ id := by
      intro p hp e
      have := h.dest p hp
      rw [e, hn] at this
      cases this
    refine Inv.log (s := { s with pending := ins id s.pending, pend := s.pend ++ [(id, d)], dests := ins d s.dests, idDest := s.idDest.put id d }) ⟨?_, h.act, ?_, ?_, ?_, ?_, ?_, ?_, ?_, ?_⟩ _
    · intro p hp
      rw [mem_ins]
      rcases List.mem_append.mp hp with hp | hp
      · exact .inr (h.pend p hp)
      · exact .inl (by rw [List.mem_singleton.mp hp])
    · intro x hx
      rw [mem_ins]
      rintro (e | e)
      · exact h1 (.inl (e ▸ hx))
      · exact h.disj x hx e
    · intro p hp
      show (s.idDest.put id d).get p.1 = _
      rw [AMap.get_put]
      have hp : p ∈ (s.pend ++ [(id, d)]) ++ s.act := hp
      by_cases hpi : p.1 = id
      · have : p = (id, d) := by
          simp only [List.mem_append, List.mem_singleton] at hp
          rcases hp with (hp | hp) | hp
          · exact absurd hpi (hnl p (List.mem_append_left _ hp))
          · exact hp
          · exact absurd hpi (hnl p (List.mem_append_right _ hp))
        subst this
        simp
      · rw [if_neg hpi]
        simp only [List.mem_append, List.mem_singleton] at hp
        rcases hp with (hp | hp) | hp
        · exact h.dest p (List.mem_append_left _ hp)
        · exact absurd (by rw [hp]) hpi
        · exact h.dest p (List.mem_append_right _ hp)
    · intro x y hx
      have hx : (s.idDest.put id d).get x = some y := hx
      rw [AMap.get_put] at hx
      show y ∈ ins d s.dests
      rw [mem_ins]
      split at hx
      · exact .inl (Option.some.inj hx).symm
      · exact .inr (h.dests x y hx)
    · intro a b y ha hb
      have ha : (s.idDest.put id d).get a = some y := ha
      have hb : (s.idDest.put id d).get b = some y := hb
      rw [AMap.get_put] at ha hb
      split at ha <;> split at hb
      · grind
      · exact absurd (h.dests b y hb) (by rw [← Option.some.inj ha]; exact h2)
      · exact absurd (h.dests a y ha) (by rw [← Option.some.inj hb]; exact h2)
      · exact h.inj a b y ha hb
    · intro x y hx
      have hx : (s.idDest.put id d).get x = some y := hx
      rw [AMap.get_put] at hx
      show x ∈ s.active ∨ x ∈ ins id s.pending
      rw [mem_ins]
      split at hx
      · exact .inr (.inl (by assumption))
      · rcases h.keys x y hx with e | e
        · exact .inl e
        · exact .inr (.inr e)
    · have hp : ((s.pend ++ [(id, d)]) ++ s.act).Perm ((id, d) :: s.live) := by
        unfold State.live
        simp only [List.append_assoc, List.singleton_append]
        exact List.perm_middle
      refine (hp.map Prod.fst).nodup_iff.mpr ?_
      rw [List.map_cons, List.nodup_cons]
      refine ⟨?_, h.ids⟩
      intro hm
      obtain ⟨p, hp, e⟩ := List.mem_map.mp hm
      exact hnl p hp e
    · exact h.used
    · intro hf
      rw [show s.running = false from hf] at hr
      cases hr
  · exact h.log _

theorem Inv.sub {s t : State D} (h : Inv s) (h1 : t.pend.Sublist s.pend) (h2 : t.act = s.act) (h3 : t.pending = s.pending) (h4 : t.active = s.active)
    (h5 : t.idDest = s.idDest) (h6 : t.dests = s.dests) (h7 : t.running = s.running) : Inv t := by
  have hl : t.live.Sublist s.live := by
    unfold State.live
    rw [h2]
    exact h1.append_right _
  refine ⟨?_, ?_, ?_, ?_, ?_, ?_, ?_, ?_, ?_, ?_⟩
  · intro p hp
    rw [h3]
    exact h.pend p (h1.subset hp)
  · rw [h2, h4]
    exact h.act
  · rw [h3, h4]
    exact h.disj
  · intro p hp
    rw [h5]
    exact h.dest p (hl.subset hp)
  · rw [h5, h6]
    exact h.dests
  · rw [h5]
    exact h.inj
  · rw [h5, h4, h3]
    exact h.keys
  · exact (hl.map _).nodup h.ids
  · rw [h7, h4, h2]
    exact h.used
  · rw [h7]
    intro hf
    have := h.down hf
    rw [this] at hl
    exact List.sublist_nil.mp hl

theorem Inv.built {s : State D} (h : Inv s) (hr : s.running = true) (e : Env D) (k : Nat) : Inv (s.built e k) := by
  unfold State.built
  split
  · exact h
  rename_i id d hk
  have hmem : (id, d) ∈ s.pend := List.mem_of_getElem? hk
  have hpd : id ∈ s.pending := h.pend _ hmem
  dsimp only
  rw [if_pos hpd]
  have hper : ((s.pend.eraseIdx k) ++ (s.act ++ [(id, d)])).Perm s.live := by
    unfold State.live
    refine List.Perm.trans ?_ ((erase_perm hk).append_right _).symm
    rw [← List.append_assoc]
    exact List.perm_append_singleton _ _
  have hnd : ∀ p ∈ s.pend.eraseIdx k, p.1 ≠ id := by
    intro p hp he
    have := (hper.map Prod.fst).nodup_iff.mpr h.ids
    rw [List.map_append, List.nodup_append] at this
    refine this.2.2 p.1 (List.mem_map_of_mem hp) id ?_ he
    simp
  refine ⟨?_, ?_, ?_, ?_, h.dests, h.inj, ?_, ?_, ?_, ?_⟩
  · intro p hp
    show p.1 ∈ rem id s.pending
    rw [mem_rem]
    exact ⟨h.pend p (List.eraseIdx_subset hp), hnd p hp⟩
  · intro p hp
    show p.1 ∈ ins id s.active
    rw [mem_ins]
    rcases List.mem_append.mp hp with hp | hp
    · exact .inr (h.act p hp)
    · exact .inl (by rw [List.mem_singleton.mp hp])
  · intro x hx
    show x ∉ rem id s.pending
    have hx : x ∈ ins id s.active := hx
    rw [mem_ins] at hx
    rw [mem_rem]
    rintro ⟨h1, h2⟩
    rcases hx with hx | hx
    · exact h2 hx
    · exact h.disj x hx h1
  · intro p hp
    exact h.dest p (hper.subset hp)
  · intro x y hx
    show x ∈ ins id s.active ∨ x ∈ rem id s.pending
    rw [mem_ins, mem_rem]
    by_cases hxi : x = id
    · exact .inl (.inl hxi)
    · rcases h.keys x y hx with h1 | h1
      · exact .inl (.inr h1)
      · exact .inr ⟨h1, hxi⟩
  · exact (hper.map Prod.fst).nodup_iff.mpr h.ids
  · intro _ x hx
    have hx : x ∈ ins id s.active := hx
    rw [mem_ins] at hx
    rcases hx with hx | hx
    · exact ⟨d, by rw [hx]; exact List.mem_append_right _ (List.mem_singleton.mpr rfl)⟩
    · obtain ⟨y, hy⟩ := h.used hr x hx
      exact ⟨y, List.mem_append_left _ hy⟩
  · intro hf
    rw [show s.running = false from hf] at hr
    cases hr

/-- What the end of a session leaves. -/
theorem ended_eq {s : State D} (h : Inv s) {k : Nat} {id : Str} {d : D} (hk : s.act[k]? = some (id, d)) :
    s.ended k = { s with act := s.act.eraseIdx k, active := rem id s.active, idDest := s.idDest.del id, dests := rem d s.dests } := by
  have hg := h.dest (id, d) (List.mem_append_right _ (List.mem_of_getElem? hk))
  have hg : s.idDest.get id = some d := hg
  unfold State.ended
  rw [hk]
  dsimp only
  unfold State.free
  dsimp only
  rw [hg]

theorem Inv.ended {s : State D} (h : Inv s) (hr : s.running = true) (k : Nat) : Inv (s.ended k) := by
  cases hk : s.act[k]? with
  | none =>
    unfold State.ended
    rw [hk]
    exact h
  | some p =>
    obtain ⟨id, d⟩ := p
    rw [ended_eq h hk]
    have hg : s.idDest.get id = some d := h.dest (id, d) (List.mem_append_right _ (List.mem_of_getElem? hk))
    have hper : s.live.Perm ((id, d) :: (s.pend ++ s.act.eraseIdx k)) := by
      unfold State.live
      exact ((erase_perm hk).append_left _).trans List.perm_middle
    have hids := (hper.map Prod.fst).nodup_iff.mp h.ids
    rw [List.map_cons, List.nodup_cons] at hids
    have hne : ∀ p ∈ s.pend ++ s.act.eraseIdx k, p.1 ≠ id := fun p hp e => hids.1 (by rw [show (id, d).1 = p.1 from e.symm]; exact List.mem_map_of_mem hp)
    refine ⟨h.pend, ?_, ?_, ?_, ?_, ?_, ?_, hids.2, ?_, ?_⟩
    · intro p hp
      show p.1 ∈ rem id s.active
      rw [mem_rem]
      exact ⟨h.act p (List.eraseIdx_subset hp), hne p (List.mem_append_right _ hp)⟩
    · intro x hx
      exact h.disj x ((mem_rem _ _ _).mp hx).1
    · intro p hp
      show (s.idDest.del id).get p.1 = _
      rw [AMap.get_del, if_neg (hne p hp)]
      exact h.dest p (hper.symm.subset (List.mem_cons_of_mem _ hp))
    · intro x y hx
      replace hx : (s.idDest.del id).get x = some y := hx
      rw [AMap.get_del] at hx
      split at hx
      · cases hx
      rename_i hxi
      show y ∈ rem d s.dests
      rw [mem_rem]
      refine ⟨h.dests x y hx, ?_⟩
      rintro rfl
      exact hxi (h.inj x id y hx hg)
    · intro a b y ha hb
      have ha : (s.idDest.del id).get a = some y := ha
      have hb : (s.idDest.del id).get b = some y := hb
      rw [AMap.get_del] at ha hb
      split at ha
      · cases ha
      split at hb
      · cases hb
      exact h.inj a b y ha hb
    · intro x y hx
      have hx : (s.idDest.del id).get x = some y := hx
      rw [AMap.get_del] at hx
      split at hx
      · cases hx
      rename_i hxi
      show x ∈ rem id s.active ∨ _
      rw [mem_rem]
      rcases h.keys x y hx with h1 | h1
      · exact .inl ⟨h1, hxi⟩
      · exact .inr h1
    · intro _ x hx
      have hx : x ∈ rem id s.active := hx
      rw [mem_rem] at hx
      obtain ⟨y, hy⟩ := h.used hr x hx.1
      refine ⟨y, ?_⟩
      rcases List.mem_cons.mp ((erase_perm hk).subset hy) with e | e
      · exact absurd (congrArg Prod.fst e) hx.2
      · exact e
    · intro hf
      rw [show s.running = false from hf] at hr
      cases hr

theorem Inv.step {s : State D} (h : Inv s) (e : Env D) (o : Op D) : Inv (s.step e o) := by
  unfold State.step
  split
  · rename_i hr
    cases o with
    | create sock id d pool => exact h.create hr sock id d pool
    | connect sock id ho room =>
      show Inv (s.connect e sock id ho room)
      unfold State.connect
      cases ho with
      | dest d => exact h.send _ _ _ _
      | b32 d => exact h.send _ _ _ _
      | name =>
        dsimp only
        split
        · exact h.of_core rfl rfl rfl rfl rfl rfl rfl
        · split
          · exact (h.log _).stop
          · exact h.log _
    | accept sock id room => exact h.send _ _ _ _
    | forward sock id port room => exact h.send _ _ _ _
    | refused => exact h
    | built k => exact h.built hr e k
    | failed k => exact h.sub (List.eraseIdx_sublist _ _) rfl rfl rfl rfl rfl rfl
    | ended k => exact h.ended hr k
    | resolved k r room =>
      show Inv (s.resolved k r room)
      unfold State.resolved
      split
      · exact h
      · have h' : Inv { s with lookups := s.lookups.eraseIdx k } := h.of_core rfl rfl rfl rfl rfl rfl rfl
        dsimp only
        split
        · exact h'.log _
        · exact h'.send _ _ _ _
    | crashed => exact h.stop
    | recv b room =>
      show Inv (s.recv e b room)
      unfold State.recv
      split
      · exact h.stop
      · exact h
      · split
        · exact h.log _
        · exact h
    | inbound port data => exact h.of_core rfl rfl rfl rfl rfl rfl rfl
    | write r =>
      show Inv (s.write r)
      unfold State.write
      dsimp only
      have key : ∀ t : State D, Inv t → Inv (match t.writing, r with
          | some (port, data), some true => { t with writing := none }.log (.sent port data)
          | some _, some false => { t with writing := none }
          | _, _ => t) := by
        intro t ht
        split
        · exact ht.of_core rfl rfl rfl rfl rfl rfl rfl
        · exact ht.of_core rfl rfl rfl rfl rfl rfl rfl
        · exact ht
      refine key _ ?_
      split
      · exact h.of_core rfl rfl rfl rfl rfl rfl rfl
      · exact h
  · exact h

theorem Inv.run {s : State D} (h : Inv s) (e : Env D) (ops : List (Op D)) : Inv (s.run e ops) := by
  induction ops generalizing s with
  | nil => exact h
  | cons o ops ih => exact ih (h.step e o)

theorem Inv.new : Inv (State.new : State D) := by
  refine ⟨?_, ?_, ?_, ?_, ?_, ?_, ?_, ?_, ?_, ?_⟩ <;> simp [State.new, State.live, AMap.get]

theorem reach (e : Env D) (ops : List (Op D)) : Inv (State.run e State.new ops) := Inv.new.run e ops

/-! ## C168 -/

/-- No two sessions, waiting for tunnels or in use, have the same name or the same destination. -/
theorem C168_distinct (e : Env D) (ops : List (Op D)) :
    ((State.run e State.new ops).live.map Prod.fst).Nodup ∧ ((State.run e State.new ops).live.map Prod.snd).Nodup := by
  have h := reach e ops
  refine ⟨h.ids, ?_⟩
  have hi := h.ids
  unfold List.Nodup at hi ⊢
  rw [List.pairwise_map] at hi ⊢
  refine hi.imp_of_mem ?_
  intro p q hp hq hne he
  have h1 := h.dest p hp
  have h2 := h.dest q hq
  rw [he] at h1
  exact hne (h.inj _ _ _ h1 h2)

/-- A session is not made if there is one with that name, and the client is told. -/
theorem C168_name (e : Env D) (ops : List (Op D)) (sock : Sock) (id : Str) (d d' : D) (pool : Bool) (hl : (id, d') ∈ (State.run e State.new ops).live) :
    ((State.run e State.new ops).step e (.create sock id d pool)) = (State.run e State.new ops).log (.reply sock "SESSION STATUS RESULT=DUPLICATE_ID".toList) := by
  have h := reach e ops
  have hr : (State.run e State.new ops).running = true := by
    cases hr : (State.run e State.new ops).running with
    | true => rfl
    | false => rw [h.down hr] at hl; cases hl
  unfold State.step
  rw [if_pos hr]
  show State.create _ _ _ _ _ = _
  unfold State.create
  rw [if_pos ?_]
  rcases List.mem_append.mp hl with hp | hp
  · exact .inr (h.pend _ hp)
  · exact .inl (h.act _ hp)

/-! ## C169 -/

theorem started {s : State D} (e : Env D) (hr : s.running = true) (sock : Sock) (id : Str) (d : D) (h1 : id ∉ s.active) (h2 : id ∉ s.pending) (h3 : d ∉ s.dests) :
    (s.step e (.create sock id d true)).out = s.out ++ [.started id d] ∧ (id, d) ∈ (s.step e (.create sock id d true)).live := by
  unfold State.step
  rw [if_pos hr]
  show (State.create _ _ _ _ _).out = _ ∧ _ ∈ (State.create _ _ _ _ _).live
  unfold State.create
  rw [if_neg (by rintro (h | h); exacts [h1 h, h2 h]), if_neg h3, if_pos rfl]
  refine ⟨rfl, ?_⟩
  unfold State.log State.live
  simp

/-- Once a session that was in use has ended its name and its destination can be used again. -/
theorem C169_ended_partial (e : Env D) (ops : List (Op D)) (sock : Sock) (k : Nat) (id : Str) (d : D) (hk : (State.run e State.new ops).act[k]? = some (id, d)) :
    ∃ s, s = (State.run e State.new ops).step e (.ended k) ∧ (∀ x, (id, x) ∉ s.live) ∧
      (s.step e (.create sock id d true)).out = s.out ++ [.started id d] ∧ (id, d) ∈ (s.step e (.create sock id d true)).live := by
  have h := reach e ops
  generalize State.run e State.new ops = s at h hk
  have hm : (id, d) ∈ s.act := List.mem_of_getElem? hk
  have hr : s.running = true := by
    cases hr : s.running with
    | true => rfl
    | false =>
      have : (id, d) ∈ s.live := List.mem_append_right _ hm
      rw [h.down hr] at this
      cases this
  have he : s.step e (.ended k) = { s with act := s.act.eraseIdx k, active := rem id s.active, idDest := s.idDest.del id, dests := rem d s.dests } := by
    unfold State.step
    rw [if_pos hr]
    exact ended_eq h hk
  have h' := h.step e (.ended k)
  refine ⟨_, rfl, ?_, ?_⟩
  · intro x hx
    have := h'.dest _ hx
    rw [he] at this
    have this : (s.idDest.del id).get id = some x := this
    rw [AMap.get_del, if_pos rfl] at this
    cases this
  · rw [he]
    refine started (s := { s with act := s.act.eraseIdx k, active := rem id s.active, idDest := s.idDest.del id, dests := rem d s.dests }) e hr sock id d ?_ (h.disj id (h.act _ hm)) ?_
    · show id ∉ rem id s.active
      rw [mem_rem]
      exact fun h => h.2 rfl
    · show d ∉ rem d s.dests
      rw [mem_rem]
      exact fun h => h.2 rfl

structure Fresh (ops : List (Op D)) (s : State D) : Prop where
  ids : ∀ id, id ∈ s.active ∨ id ∈ s.pending → ∃ o ∈ ops, ∃ d, asked o = some (id, d)
  dests : ∀ d ∈ s.dests, ∃ o ∈ ops, ∃ id, asked o = some (id, d)

theorem Fresh.mono {ops : List (Op D)} {s t : State D} (h : Fresh ops s) (o : Op D) (h1 : ∀ id, id ∈ t.active ∨ id ∈ t.pending → id ∈ s.active ∨ id ∈ s.pending)
    (h2 : ∀ d ∈ t.dests, d ∈ s.dests) : Fresh (ops ++ [o]) t := by
  constructor
  · intro id hid
    obtain ⟨x, hx, y⟩ := h.ids id (h1 id hid)
    exact ⟨x, List.mem_append_left _ hx, y⟩
  · intro d hd
    obtain ⟨x, hx, y⟩ := h.dests d (h2 d hd)
    exact ⟨x, List.mem_append_left _ hx, y⟩

theorem free_sub (s : State D) (id : Str) : (s.free id).active = s.active ∧ (s.free id).pending = s.pending ∧ ∀ d ∈ (s.free id).dests, d ∈ s.dests := by
  unfold State.free
  split
  · exact ⟨rfl, rfl, fun d hd => ((mem_rem _ _ _).mp hd).1⟩
  · exact ⟨rfl, rfl, fun d hd => hd⟩

theorem send_core (s : State D) (id : Str) (sock : Sock) (w : What D) (room : Bool) :
    (s.send id sock w room).active = s.active ∧ (s.send id sock w room).pending = s.pending ∧ (s.send id sock w room).dests = s.dests := by
  unfold State.send
  split <;> exact ⟨rfl, rfl, rfl⟩

theorem Fresh.step {ops : List (Op D)} {s : State D} (h : Fresh ops s) (hi : Inv s) (e : Env D) (o : Op D) : Fresh (ops ++ [o]) (s.step e o) := by
  unfold State.step
  split
  · rename_i hr
    have same : Fresh (ops ++ [o]) s := h.mono o (fun _ h => h) (fun _ h => h)
    have hsend : ∀ (t : State D) id sock w room, t.active = s.active → t.pending = s.pending → t.dests = s.dests → Fresh (ops ++ [o]) (t.send id sock w room) := by
      intro t id sock w room e1 e2 e3
      obtain ⟨a, b, c⟩ := send_core t id sock w room
      exact h.mono o (by rw [a, b, e1, e2]; exact fun _ h => h) (by rw [c, e3]; exact fun _ h => h)
    cases o with
    | create sock id d pool =>
      show Fresh _ (s.create sock id d pool)
      unfold State.create
      split
      · exact h.mono _ (fun _ h => h) (fun _ h => h)
      split
      · exact h.mono _ (fun _ h => h) (fun _ h => h)
      split
      · constructor
        · intro x hx
          have hx : x ∈ s.active ∨ x ∈ ins id s.pending := hx
          rw [mem_ins] at hx
          rcases hx with hx | hx | hx
          · obtain ⟨o, ho, y⟩ := h.ids x (.inl hx)
            exact ⟨o, List.mem_append_left _ ho, y⟩
          · exact ⟨_, List.mem_append_right _ (List.mem_singleton.mpr rfl), d, by rw [hx]; rfl⟩
          · obtain ⟨o, ho, y⟩ := h.ids x (.inr hx)
            exact ⟨o, List.mem_append_left _ ho, y⟩
        · intro x hx
          have hx : x ∈ ins d s.dests := hx
          rw [mem_ins] at hx
          rcases hx with hx | hx
          · exact ⟨_, List.mem_append_right _ (List.mem_singleton.mpr rfl), id, by rw [hx]; rfl⟩
          · obtain ⟨o, ho, y⟩ := h.dests x hx
            exact ⟨o, List.mem_append_left _ ho, y⟩
      · exact h.mono _ (fun _ h => h) (fun _ h => h)
    | connect sock id ho room =>
      show Fresh _ (s.connect e sock id ho room)
      unfold State.connect
      cases ho with
      | dest d => exact hsend s _ _ _ _ rfl rfl rfl
      | b32 d => exact hsend s _ _ _ _ rfl rfl rfl
      | name =>
        dsimp only
        split
        · exact h.mono _ (fun _ h => h) (fun _ h => h)
        · split <;> exact h.mono _ (fun _ h => h) (fun _ h => h)
    | accept sock id room => exact hsend s _ _ _ _ rfl rfl rfl
    | forward sock id port room => exact hsend s _ _ _ _ rfl rfl rfl
    | refused => exact same
    | built k =>
      show Fresh _ (s.built e k)
      unfold State.built
      split
      · exact same
      rename_i id d hk
      dsimp only
      have hp := hi.pend _ (List.mem_of_getElem? hk)
      have hp : id ∈ s.pending := hp
      rw [if_pos hp]
      refine h.mono _ ?_ (fun _ => fun h => h)
      intro x hx
      have hx : x ∈ ins id s.active ∨ x ∈ rem id s.pending := hx
      rw [mem_ins, mem_rem] at hx
      rcases hx with (hx | hx) | hx
      · exact .inr (hx ▸ hp)
      · exact .inl hx
      · exact .inr hx.1
    | failed k => exact h.mono _ (fun _ => fun h => h) (fun _ => fun h => h)
    | ended k =>
      show Fresh _ (s.ended k)
      unfold State.ended
      split
      · exact same
      · rename_i id d hk
        obtain ⟨a, b, c⟩ := free_sub { s with act := s.act.eraseIdx k, active := rem id s.active } id
        refine h.mono _ ?_ (fun d hd => c d hd)
        rw [a, b]
        intro x hx
        rcases hx with hx | hx
        · exact .inl ((mem_rem _ _ _).mp hx).1
        · exact .inr hx
    | resolved k r room =>
      show Fresh _ (s.resolved k r room)
      unfold State.resolved
      split
      · exact same
      · dsimp only
        split
        · exact h.mono _ (fun _ => fun h => h) (fun _ => fun h => h)
        · exact hsend _ _ _ _ _ rfl rfl rfl
    | crashed => exact h.mono _ (fun _ => fun h => h) (fun _ => fun h => h)
    | recv b room =>
      show Fresh _ (s.recv e b room)
      unfold State.recv
      split
      · exact h.mono _ (fun _ => fun h => h) (fun _ => fun h => h)
      · exact same
      · split <;> exact h.mono _ (fun _ => fun h => h) (fun _ => fun h => h)
    | inbound port data => exact h.mono _ (fun _ => fun h => h) (fun _ => fun h => h)
    | write r =>
      show Fresh _ (s.write r)
      unfold State.write
      dsimp only
      (repeat' split) <;> exact h.mono _ (fun _ => fun h => h) (fun _ => fun h => h)
  · exact h.mono _ (fun _ => fun h => h) (fun _ => fun h => h)

theorem fresh (e : Env D) (ops : List (Op D)) : Fresh ops (State.run e State.new ops) := by
  have key : ∀ (ops pre : List (Op D)) (s : State D), Inv s → Fresh pre s → Fresh (pre ++ ops) (State.run e s ops) := by
    intro ops
    induction ops with
    | nil => intro pre s _ h; rw [List.append_nil]; exact h
    | cons o ops ih =>
      intro pre s hi h
      have := ih (pre ++ [o]) (s.step e o) (hi.step e o) (h.step hi e o)
      rw [List.append_assoc] at this
      exact this
  exact key ops [] State.new Inv.new ⟨by simp [State.new], by simp [State.new]⟩

/-- A session is not made if there is one with that destination, and the client is told. If the name was not asked for before, the answer says that it is the destination. -/
theorem C168_destination (e : Env D) (ops : List (Op D)) (sock : Sock) (id id' : Str) (d : D) (pool : Bool) (hl : (id', d) ∈ (State.run e State.new ops).live) :
    (∃ r, (State.run e State.new ops).step e (.create sock id d pool) = (State.run e State.new ops).log (.reply sock r)) ∧
    ((∀ o ∈ ops, ∀ x, asked o ≠ some (id, x)) →
      (State.run e State.new ops).step e (.create sock id d pool) = (State.run e State.new ops).log (.reply sock "SESSION STATUS RESULT=DUPLICATE_DEST".toList)) := by
  have h := reach e ops
  have hr : (State.run e State.new ops).running = true := by
    cases hr : (State.run e State.new ops).running with
    | true => rfl
    | false => rw [h.down hr] at hl; cases hl
  have hd : d ∈ (State.run e State.new ops).dests := h.dests _ _ (h.dest _ hl)
  unfold State.step
  rw [if_pos hr]
  dsimp only
  unfold State.create
  refine ⟨?_, ?_⟩
  · split
    · exact ⟨_, rfl⟩
    · exact ⟨_, rfl⟩
  · intro h1
    rw [if_neg, if_pos hd]
    intro hx
    obtain ⟨o, ho, x, hx⟩ := (fresh e ops).ids id hx
    exact h1 o ho x hx

/-- A session is made if no one has asked for its name or its destination before, the server is running and the tunnel manager takes the request. -/
theorem C169_new (e : Env D) (ops : List (Op D)) (sock : Sock) (id : Str) (d : D) (hr : (State.run e State.new ops).running = true)
    (h1 : ∀ o ∈ ops, ∀ x, asked o ≠ some (id, x)) (h2 : ∀ o ∈ ops, ∀ x, asked o ≠ some (x, d)) :
    ((State.run e State.new ops).step e (.create sock id d true)).out = (State.run e State.new ops).out ++ [.started id d] ∧
      (id, d) ∈ ((State.run e State.new ops).step e (.create sock id d true)).live := by
  have h := fresh e ops
  refine started e hr sock id d ?_ ?_ ?_
  · intro hx
    obtain ⟨o, ho, x, hx⟩ := h.ids id (.inl hx)
    exact h1 o ho x hx
  · intro hx
    obtain ⟨o, ho, x, hx⟩ := h.ids id (.inr hx)
    exact h1 o ho x hx
  · intro hx
    obtain ⟨o, ho, x, hx⟩ := h.dests d hx
    exact h2 o ho x hx

/-- The name of a session that failed while it waited for tunnels. -/
structure Stuck (s : State D) (id : Str) (d : D) : Prop where
  name : id ∈ s.pending
  gone : ∀ x, (id, x) ∉ s.live
  dest : s.idDest.get id = some d

theorem Stuck.of_core {s t : State D} {id : Str} {d : D} (h : Stuck s id d) (h1 : t.pending = s.pending) (h2 : ∀ p ∈ t.live, p ∈ s.live) (h3 : t.idDest = s.idDest) : Stuck t id d :=
  ⟨by rw [h1]; exact h.name, fun x hx => h.gone x (h2 _ hx), by rw [h3]; exact h.dest⟩

theorem send_live (s : State D) (id : Str) (sock : Sock) (w : What D) (room : Bool) :
    (s.send id sock w room).pending = s.pending ∧ (s.send id sock w room).live = s.live ∧ (s.send id sock w room).idDest = s.idDest := by
  unfold State.send
  split <;> exact ⟨rfl, rfl, rfl⟩

theorem Stuck.step {s : State D} {id : Str} {d : D} (h : Stuck s id d) (hi : Inv s) (e : Env D) (o : Op D) : Stuck (s.step e o) id d := by
  unfold State.step
  split
  · rename_i hr
    have hstop : ∀ t : State D, t.pending = s.pending → t.idDest = s.idDest → Stuck t.stop id d := fun t h1 h2 =>
      h.of_core h1 (by simp [State.live, State.stop]) h2
    have hsend : ∀ (t : State D) i sock w room, t.pending = s.pending → t.live = s.live → t.idDest = s.idDest → Stuck (t.send i sock w room) id d := by
      intro t i sock w room e1 e2 e3
      obtain ⟨a, b, c⟩ := send_live t i sock w room
      exact h.of_core (a.trans e1) (by rw [b, e2]; exact fun _ h => h) (c.trans e3)
    cases o with
    | create sock i y pool =>
      show Stuck (s.create sock i y pool) id d
      unfold State.create
      split
      · exact h.of_core rfl (fun _ h => h) rfl
      rename_i h1
      split
      · exact h.of_core rfl (fun _ h => h) rfl
      split
      · have hne : id ≠ i := fun he => h1 (.inr (he ▸ h.name))
        refine ⟨?_, ?_, ?_⟩
        · show id ∈ ins i s.pending
          rw [mem_ins]
          exact .inr h.name
        · intro x hx
          have hx : (id, x) ∈ (s.pend ++ [(i, y)]) ++ s.act := hx
          simp only [List.mem_append, List.mem_singleton] at hx
          rcases hx with (hx | hx) | hx
          · exact h.gone x (List.mem_append_left _ hx)
          · exact hne (congrArg Prod.fst hx)
          · exact h.gone x (List.mem_append_right _ hx)
        · show (s.idDest.put i y).get id = _
          rw [AMap.get_put, if_neg hne]
          exact h.dest
      · exact h.of_core rfl (fun _ h => h) rfl
    | connect sock i ho room =>
      show Stuck (s.connect e sock i ho room) id d
      unfold State.connect
      cases ho with
      | dest d => exact hsend s _ _ _ _ rfl rfl rfl
      | b32 d => exact hsend s _ _ _ _ rfl rfl rfl
      | name =>
        dsimp only
        split
        · exact h.of_core rfl (fun _ h => h) rfl
        · split
          · exact hstop _ rfl rfl
          · exact h.of_core rfl (fun _ h => h) rfl
    | accept sock i room => exact hsend s _ _ _ _ rfl rfl rfl
    | forward sock i port room => exact hsend s _ _ _ _ rfl rfl rfl
    | refused => exact h
    | built k =>
      show Stuck (s.built e k) id d
      unfold State.built
      split
      · exact h
      rename_i i y hk
      dsimp only
      have hm := List.mem_of_getElem? hk
      have hp : i ∈ s.pending := hi.pend _ hm
      rw [if_pos hp]
      have hne : id ≠ i := fun he => h.gone y (he ▸ List.mem_append_left _ hm)
      refine ⟨?_, ?_, h.dest⟩
      · show id ∈ rem i s.pending
        rw [mem_rem]
        exact ⟨h.name, hne⟩
      · intro x hx
        have hx : (id, x) ∈ (s.pend.eraseIdx k) ++ (s.act ++ [(i, y)]) := hx
        simp only [List.mem_append, List.mem_singleton] at hx
        rcases hx with hx | hx | hx
        · exact h.gone x (List.mem_append_left _ (List.eraseIdx_subset hx))
        · exact h.gone x (List.mem_append_right _ hx)
        · exact hne (congrArg Prod.fst hx)
    | failed k =>
      refine h.of_core rfl ?_ rfl
      intro p hp
      rcases List.mem_append.mp hp with hp | hp
      · exact List.mem_append_left _ (List.eraseIdx_subset hp)
      · exact List.mem_append_right _ hp
    | ended k =>
      show Stuck (s.ended k) id d
      cases hk : s.act[k]? with
      | none =>
        unfold State.ended
        rw [hk]
        exact h
      | some p =>
        obtain ⟨i, y⟩ := p
        have hm := List.mem_of_getElem? hk
        have hne : id ≠ i := fun he => h.gone y (he ▸ List.mem_append_right _ hm)
        rw [ended_eq hi hk]
        refine ⟨h.name, ?_, ?_⟩
        · intro x hx
          rcases List.mem_append.mp hx with hx | hx
          · exact h.gone x (List.mem_append_left _ hx)
          · exact h.gone x (List.mem_append_right _ (List.eraseIdx_subset hx))
        · show (s.idDest.del i).get id = _
          rw [AMap.get_del, if_neg hne]
          exact h.dest
    | resolved k r room =>
      show Stuck (s.resolved k r room) id d
      unfold State.resolved
      split
      · exact h
      · dsimp only
        split
        · exact h.of_core rfl (fun _ h => h) rfl
        · exact hsend _ _ _ _ _ rfl rfl rfl
    | crashed => exact hstop _ rfl rfl
    | recv b room =>
      show Stuck (s.recv e b room) id d
      unfold State.recv
      split
      · exact hstop _ rfl rfl
      · exact h
      · split
        · exact h.of_core rfl (fun _ h => h) rfl
        · exact h
    | inbound port data => exact h.of_core rfl (fun _ h => h) rfl
    | write r =>
      show Stuck (s.write r) id d
      unfold State.write
      dsimp only
      (repeat' split) <;> exact h.of_core rfl (fun _ h => h) rfl
  · exact h

theorem Stuck.run {s : State D} {id : Str} {d : D} (h : Stuck s id d) (hi : Inv s) (e : Env D) (ops : List (Op D)) : Stuck (s.run e ops) id d ∧ Inv (s.run e ops) := by
  induction ops generalizing s with
  | nil => exact ⟨h, hi⟩
  | cons o ops ih => exact ih (h.step hi e o) (hi.step e o)

/-- A session that fails while it waits for tunnels is gone, but whatever happens afterwards its name and its destination are refused as duplicates. -/
theorem C169_failed_violated (e : Env D) (ops : List (Op D)) (k : Nat) (id : Str) (d : D) (hk : (State.run e State.new ops).pend[k]? = some (id, d))
    (more : List (Op D)) :
    ∃ s, s = ((State.run e State.new ops).step e (.failed k)).run e more ∧ (∀ x, (id, x) ∉ s.live) ∧ (∀ x, (x, d) ∉ s.live) ∧
      (s.running = true → ∀ sock pool x y,
        s.step e (.create sock id x pool) = s.log (.reply sock "SESSION STATUS RESULT=DUPLICATE_ID".toList) ∧
        (s.step e (.create sock y d pool) = s.log (.reply sock "SESSION STATUS RESULT=DUPLICATE_ID".toList) ∨
          s.step e (.create sock y d pool) = s.log (.reply sock "SESSION STATUS RESULT=DUPLICATE_DEST".toList))) := by
  have h := reach e ops
  generalize State.run e State.new ops = s at h hk
  have hm := List.mem_of_getElem? hk
  have hr : s.running = true := by
    cases hr : s.running with
    | true => rfl
    | false =>
      have : (id, d) ∈ s.live := List.mem_append_left _ hm
      rw [h.down hr] at this
      cases this
  have hs : Stuck (s.step e (.failed k)) id d := by
    have he : s.step e (.failed k) = { s with pend := s.pend.eraseIdx k } := by
      unfold State.step
      rw [if_pos hr]
      rfl
    rw [he]
    refine ⟨h.pend _ hm, ?_, h.dest (id, d) (List.mem_append_left _ hm)⟩
    intro x hx
    have hper : s.live.Perm ((id, d) :: (s.pend.eraseIdx k ++ s.act)) := (erase_perm hk).append_right _
    have hids := (hper.map Prod.fst).nodup_iff.mp h.ids
    rw [List.map_cons, List.nodup_cons] at hids
    have hx : (id, x) ∈ s.pend.eraseIdx k ++ s.act := hx
    exact hids.1 (List.mem_map.mpr ⟨_, hx, rfl⟩)
  obtain ⟨h1, h2⟩ := hs.run (h.step e _) e more
  generalize ((s.step e (.failed k)).run e more) = s' at h1 h2
  refine ⟨_, rfl, h1.gone, ?_, ?_⟩
  · intro x hx
    have := h2.inj _ _ _ (h2.dest _ hx) h1.dest
    exact h1.gone d (this ▸ hx)
  · intro hr sock pool x y
    unfold State.step
    rw [if_pos hr, if_pos hr]
    dsimp only
    unfold State.create
    rw [if_pos (.inr h1.name)]
    refine ⟨rfl, ?_⟩
    split
    · exact .inl rfl
    · rw [if_pos (h2.dests _ _ h1.dest)]
      exact .inr rfl

/-! ## C170 -/

/-- What a session is to do for a command that a client sent. -/
def wanted : Op D → Option (Sock × Str × What D × Bool)
  | .connect sock id (.dest d) room => some (sock, id, .connect d, room)
  | .connect sock id (.b32 d) room => some (sock, id, .connect d, room)
  | .accept sock id room => some (sock, id, .accept, room)
  | .forward sock id port room => some (sock, id, .forward port, room)
  | _ => none

theorem wanted_step (e : Env D) (s : State D) (hr : s.running = true) (o : Op D) (sock : Sock) (id : Str) (w : What D) (room : Bool) (ho : wanted o = some (sock, id, w, room)) :
    s.step e o = s.send id sock w room := by
  unfold State.step
  rw [if_pos hr]
  cases o with
  | connect _ _ h _ => cases h <;> cases ho <;> rfl
  | accept => cases ho; rfl
  | forward => cases ho; rfl
  | _ => cases ho

/-- A command for a session in use is passed to it if its channel has room. -/
theorem C170_passed_partial (e : Env D) (ops : List (Op D)) (o : Op D) (sock : Sock) (id : Str) (w : What D) (ho : wanted o = some (sock, id, w, true))
    (d : D) (ha : (id, d) ∈ (State.run e State.new ops).act) :
    (State.run e State.new ops).step e o = (State.run e State.new ops).log (.command id sock w) := by
  have h := reach e ops
  have hr : (State.run e State.new ops).running = true := by
    cases hr : (State.run e State.new ops).running with
    | true => rfl
    | false =>
      have : (id, d) ∈ (State.run e State.new ops).live := List.mem_append_right _ ha
      rw [h.down hr] at this
      cases this
  rw [wanted_step e _ hr o sock id w true ho]
  unfold State.send
  rw [if_pos ⟨h.act _ ha, rfl⟩]

/-- A command for a session that does not exist, or still waits for tunnels, or has too much to do, is dropped: the client gets no answer. -/
theorem C170_unanswered_violated (e : Env D) (ops : List (Op D)) (hr : (State.run e State.new ops).running = true) (o : Op D) (sock : Sock) (id : Str) (w : What D) (room : Bool)
    (ho : wanted o = some (sock, id, w, room)) (ha : (∀ d, (id, d) ∉ (State.run e State.new ops).act) ∨ room = false) :
    (State.run e State.new ops).step e o = (State.run e State.new ops).log (.closed sock) := by
  have h := reach e ops
  rw [wanted_step e _ hr o sock id w room ho]
  unfold State.send
  rw [if_neg]
  rintro ⟨h1, h2⟩
  rcases ha with ha | ha
  · obtain ⟨d, hd⟩ := h.used hr id h1
    exact ha d hd
  · rw [ha] at h2
    cases h2

/-- A datagram that can be read, of at most 4095 bytes, is passed to the session it names if that session is in use and its channel has room, and to no other. -/
theorem C170_datagrams (e : Env D) (ops : List (Op D)) (hr : (State.run e State.new ops).running = true) (b : Bytes) (hb : b.length ≤ 4095) (room : Bool)
    (p : SamParser.Datagram D) (hp : SamParser.datagram e.parser e.text b = .ok p) :
    ((∃ d, (p.id, d) ∈ (State.run e State.new ops).act) → room = true →
      ((State.run e State.new ops).step e (.recv b room)).out = (State.run e State.new ops).out ++ [.datagram p.id p.dest p.data]) ∧
    ((∀ d, (p.id, d) ∉ (State.run e State.new ops).act) ∨ room = false →
      (State.run e State.new ops).step e (.recv b room) = State.run e State.new ops) := by
  have h := reach e ops
  have hs : (State.run e State.new ops).step e (.recv b room) = (State.run e State.new ops).recv e b room := by
    unfold State.step
    rw [if_pos hr]
  rw [hs]
  unfold State.recv
  rw [List.take_of_length_le hb, hp]
  dsimp only
  constructor
  · rintro ⟨d, hd⟩ hm
    rw [if_pos ⟨h.act _ hd, hm⟩]
    rfl
  · intro hn
    rw [if_neg]
    rintro ⟨h1, h2⟩
    rcases hn with hn | hn
    · obtain ⟨d, hd⟩ := h.used hr _ h1
      exact hn d hd
    · rw [hn] at h2
      cases h2

/-- A host name that the address book does not know is answered, and one that it knows is passed on like a destination. -/
theorem C170_names (e : Env D) (s : State D) (hr : s.running = true) (hb : e.book = true) (sock : Sock) (id : Str) (room : Bool) :
    (s.step e (.connect sock id .name room)).out = s.out ∧ (id, sock) ∈ (s.step e (.connect sock id .name room)).lookups ∧
    ∀ k, s.lookups[k]? = some (id, sock) →
      (s.step e (.resolved k none room)).out = s.out ++ [.reply sock "STREAM STATUS RESULT=I2P_ERROR\n".toList] ∧
      ∀ d, (s.step e (.resolved k (some d) room)).out = (s.step e (.connect sock id (.dest d) room)).out := by
  unfold State.step
  simp only [hr, if_true]
  refine ⟨?_, ?_, ?_⟩
  · unfold State.connect
    rw [hb]
    rfl
  · unfold State.connect
    rw [hb]
    simp
  · intro k hk
    unfold State.resolved
    rw [hk]
    refine ⟨rfl, fun d => ?_⟩
    unfold State.connect State.send
    dsimp only
    split <;> rfl

/-- Without an address book, a client that wants to connect to a host name gets no answer, and debug builds of the server end with all their sessions. -/
theorem C170_bookless_violated (e : Env D) (s : State D) (hr : s.running = true) (hb : e.book = false) (sock : Sock) (id : Str) (room : Bool) :
    (s.step e (.connect sock id .name room)).out = s.out ++ [.closed sock] ∧
    ((s.step e (.connect sock id .name room)).running = !e.chk) ∧ (e.chk = true → (s.step e (.connect sock id .name room)).live = []) := by
  unfold State.step
  rw [if_pos hr]
  show (State.connect _ _ _ _ _ _).out = _ ∧ (State.connect _ _ _ _ _ _).running = _ ∧ (_ → (State.connect _ _ _ _ _ _).live = _)
  unfold State.connect
  dsimp only
  rw [hb, if_neg (by simp)]
  cases hc : e.chk with
  | true => exact ⟨rfl, rfl, fun _ => rfl⟩
  | false => exact ⟨rfl, hr, nofun⟩

/-- The answer that a name or a destination is in use does not end with a line feed, unlike what clients wait for. -/
theorem C170_unterminated_violated (e : Env D) (ops : List (Op D)) (sock : Sock) (id : Str) (d d' : D) (pool : Bool) (hl : (id, d') ∈ (State.run e State.new ops).live) :
    ∃ r : Str, ((State.run e State.new ops).step e (.create sock id d pool)).out = (State.run e State.new ops).out ++ [.reply sock r] ∧ '\n' ∉ r := by
  rw [C168_name e ops sock id d d' pool hl]
  exact ⟨_, rfl, by decide⟩

/-- If the tunnel manager does not take the request for tunnels, the client gets no answer and the name stays free. -/
theorem C170_refused_violated (e : Env D) (ops : List (Op D)) (hr : (State.run e State.new ops).running = true) (sock : Sock) (id : Str) (d : D)
    (h1 : ∀ o ∈ ops, ∀ x, asked o ≠ some (id, x)) (h2 : ∀ o ∈ ops, ∀ x, asked o ≠ some (x, d)) :
    (State.run e State.new ops).step e (.create sock id d false) = (State.run e State.new ops).log (.closed sock) := by
  have h := fresh e ops
  unfold State.step
  rw [if_pos hr]
  show State.create _ _ _ _ _ = _
  unfold State.create
  rw [if_neg, if_neg]
  · rfl
  · intro hx
    obtain ⟨o, ho, x, hx⟩ := h.dests d hx
    exact h2 o ho x hx
  · intro hx
    obtain ⟨o, ho, x, hx⟩ := h.ids id hx
    exact h1 o ho x hx

/-! ## C171 -/

theorem stopped (e : Env D) (s : State D) (h : s.running = false) (ops : List (Op D)) : s.run e ops = s := by
  induction ops with
  | nil => rfl
  | cons o ops ih =>
    show State.run e (s.step e o) ops = s
    have : s.step e o = s := by
      unfold State.step
      rw [h]
      rfl
    rw [this, ih]

/-- A datagram of fewer than four bytes ends the server: no session is left and nothing is done any more. -/
theorem C171_short_violated (e : Env D) (s : State D) (hr : s.running = true) (b : Bytes) (hb : b.length < 4) (room : Bool) (ops : List (Op D)) :
    ((s.step e (.recv b room)).run e ops).live = [] ∧ ((s.step e (.recv b room)).run e ops).out = s.out := by
  have he : s.step e (.recv b room) = s.stop := by
    unfold State.step
    rw [if_pos hr]
    show State.recv _ _ _ _ = _
    unfold State.recv
    rw [(SamParser.C167_panic_violated e.parser e.text (b.take 0xfff)).mpr (by rw [List.length_take]; omega)]
  rw [he, stopped e _ rfl]
  exact ⟨rfl, rfl⟩

/-- A panic in the task of one connection, session or lookup ends the server and all other sessions. -/
theorem C171_crash_violated (e : Env D) (s : State D) (hr : s.running = true) (ops : List (Op D)) :
    ((s.step e .crashed).run e ops).live = [] ∧ ((s.step e .crashed).run e ops).out = s.out := by
  have he : s.step e .crashed = s.stop := by
    unfold State.step
    rw [if_pos hr]
  rw [he, stopped e _ rfl]
  exact ⟨rfl, rfl⟩

/-- Unless there is no address book and debug assertions are on, short datagrams and panics in tasks are all that ends the server. -/
theorem C171_running_partial (e : Env D) (hc : e.book = true ∨ e.chk = false) (ops : List (Op D)) (h1 : ∀ o ∈ ops, o ≠ .crashed)
    (h2 : ∀ o ∈ ops, ∀ b room, o = .recv b room → 4 ≤ b.length) : (State.run e State.new ops).running = true := by
  have step : ∀ (s : State D) (o : Op D), Inv s → s.running = true → o ≠ .crashed → (∀ b room, o = .recv b room → 4 ≤ b.length) → (s.step e o).running = true := by
    intro s o hi hr ho hb
    have hsend : ∀ (t : State D) i sock w room, t.running = true → (t.send i sock w room).running = true := by
      intro t i sock w room ht
      unfold State.send
      split <;> exact ht
    unfold State.step
    rw [if_pos hr]
    cases o with
    | create sock i y pool =>
      show (s.create sock i y pool).running = true
      unfold State.create
      (repeat' split) <;> exact hr
    | connect sock i h room =>
      show (s.connect e sock i h room).running = true
      unfold State.connect
      cases h with
      | dest d => exact hsend _ _ _ _ _ hr
      | b32 d => exact hsend _ _ _ _ _ hr
      | name =>
        dsimp only
        split
        · exact hr
        · rename_i hn
          rcases hc with hc | hc
          · exact absurd hc hn
          · rw [hc]
            exact hr
    | accept sock i room => exact hsend _ _ _ _ _ hr
    | forward sock i port room => exact hsend _ _ _ _ _ hr
    | refused => exact hr
    | built k =>
      show (s.built e k).running = true
      unfold State.built
      split
      · exact hr
      rename_i i y hk
      dsimp only
      have hp : i ∈ s.pending := hi.pend _ (List.mem_of_getElem? hk)
      rw [if_pos hp]
      exact hr
    | failed k => exact hr
    | ended k =>
      show (s.ended k).running = true
      unfold State.ended
      split
      · exact hr
      · unfold State.free
        split <;> exact hr
    | resolved k r room =>
      show (s.resolved k r room).running = true
      unfold State.resolved
      split
      · exact hr
      · dsimp only
        split
        · exact hr
        · exact hsend _ _ _ _ _ hr
    | crashed => exact absurd rfl ho
    | recv b room =>
      show (s.recv e b room).running = true
      unfold State.recv
      split
      · rename_i hp
        have := (SamParser.C167_panic_violated e.parser e.text (b.take 0xfff)).mp hp
        have hb := hb b room rfl
        rw [List.length_take] at this
        omega
      · exact hr
      · split <;> exact hr
    | inbound port data => exact hr
    | write r =>
      show (s.write r).running = true
      unfold State.write
      dsimp only
      (repeat' split) <;> exact hr
  have key : ∀ (s : State D), Inv s → s.running = true → (State.run e s ops).running = true := by
    induction ops with
    | nil => exact fun s _ hr => hr
    | cons o ops ih =>
      intro s hi hr
      exact ih (fun o ho => h1 o (List.mem_cons_of_mem _ ho)) (fun o ho => h2 o (List.mem_cons_of_mem _ ho)) _ (hi.step e o)
        (step s o hi hr (h1 o List.mem_cons_self) (h2 o List.mem_cons_self))
  exact key State.new Inv.new rfl

end Emissary.SamServer
