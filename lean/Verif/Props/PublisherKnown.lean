import Mathlib.Data.List.Perm.Subperm
import Verif.Props.Publisher
import Verif.Props.Netdb

/-!
# Which floodfills a publisher knows (C157)

`C157_closest` says which of the known floodfills a lease set is sent to. Here: how the known floodfills change.
-/

namespace Emissary.Publish

open Emissary
open Emissary.Dest (Lease)
open Emissary.I2np (Duration)

/-- What is known of a router after an answer of the network database. -/
def Answered (s : State) (l : List (Bytes × Nat)) (r : Bytes) : Option Nat :=
  match AMap.get l.reverse r with
  | some k => some k
  | none => s.floodfills.get r

theorem get_ids {m : AMap Bytes Nat} (r : Bytes) : (m.get r).isSome ↔ r ∈ m.map (·.1) := by
  induction m with
  | nil => simp
  | cons x m ih =>
    rw [AMap.get_cons, List.map_cons, List.mem_cons]
    by_cases h : x.1 = r
    · simp [h]
    · rw [if_neg h, ih]
      constructor
      · exact Or.inr
      · rintro (e | e)
        · exact absurd e.symm h
        · exact e

/-- After the network database has answered, the publisher knows the ten floodfills closest to the target among those that it knew and those of the answer. -/
theorem C157_known (chk : Bool) (s : State) (t : Turn) (l : List (Bytes × Nat)) (hp : s.phase = .closest) (ha : t.answer = some (some l)) (hok : s.floodfills.Ok)
    (h32 : ∀ r k, Answered s l r = some k → r.length = 32) :
    let m := (s.turn chk t).1.floodfills
    m.length ≤ 10 ∧ (∀ r k, m.get r = some k → Answered s l r = some k) ∧
    ∀ r k, Answered s l r = some k → m.get r = none → m.length = 10 ∧ ∀ g j, m.get g = some j → Netdb.distance t.target g < Netdb.distance t.target r := by
  intro m
  have hall : ∀ r, (s.floodfills.puts l).get r = Answered s l r := fun r => by
    rw [AMap.get_puts]
    unfold Answered
    cases AMap.get l.reverse r <;> rfl
  have hok' : (s.floodfills.puts l).Ok := AMap.ok_puts l hok
  generalize hids : (s.floodfills.puts l).map (·.1) = ids
  have hm : m = (s.floodfills.puts l).keep fun r _ => decide (r ∈ Netdb.getNClosest t.target ids 10) := by
    show (s.turn chk t).1.floodfills = _
    unfold State.turn
    rw [hp, ha]
    unfold State.gotClosest State.ids numClosest
    rw [← hids]
  have h32' : ∀ r ∈ ids, r.length = 32 := by
    intro r hr
    rw [← hids] at hr
    obtain ⟨k, hk⟩ := Option.isSome_iff_exists.mp ((get_ids r).mpr hr)
    exact h32 r k (by rw [← hall]; exact hk)
  have hnd : ids.Nodup := by rw [← hids]; exact hok'
  obtain ⟨n1, n2, n3, n4⟩ := Netdb.C42_get_n_closest t.target h32' hnd 10
  have hget : ∀ r, m.get r = if r ∈ Netdb.getNClosest t.target ids 10 then Answered s l r else none := by
    intro r
    rw [hm, AMap.get_keep hok', hall]
    cases hx : Answered s l r with
    | none => simp
    | some k =>
      by_cases hr : r ∈ Netdb.getNClosest t.target ids 10
      · simp [hr]
      · simp [hr]
  have hperm : List.Perm (m.map (·.1)) (Netdb.getNClosest t.target ids 10) := by
    have hmok : (m.map (·.1)).Nodup := by rw [hm]; exact AMap.ok_keep hok' _
    refine (List.perm_ext_iff_of_nodup hmok n1).mpr ?_
    intro r
    rw [← get_ids, hget]
    by_cases hr : r ∈ Netdb.getNClosest t.target ids 10
    · rw [if_pos hr]
      have := n3 r hr
      rw [← hids, ← get_ids, hall] at this
      exact ⟨fun _ => hr, fun _ => this⟩
    · rw [if_neg hr]
      exact ⟨fun h => absurd h (by simp), fun h => absurd h hr⟩
  have hlen : m.length = min 10 ids.length := by
    have := hperm.length_eq
    rw [List.length_map, n2] at this
    exact this
  refine ⟨by rw [hlen]; exact Nat.min_le_left _ _, ?_, ?_⟩
  · intro r k h
    rw [hget] at h
    split at h
    · exact h
    · cases h
  · intro r k hr hno
    have hin : r ∈ ids := by
      rw [← hids, ← get_ids, hall, hr]
      rfl
    have hout : r ∉ Netdb.getNClosest t.target ids 10 := by
      intro h
      rw [hget, if_pos h, hr] at hno
      cases hno
    constructor
    · rw [hlen]
      by_cases hlt : ids.length < 10
      · exfalso
        have hsub : ∀ x ∈ Netdb.getNClosest t.target ids 10, x ∈ ids := n3
        have hl2 : (Netdb.getNClosest t.target ids 10).length = ids.length := by rw [n2]; omega
        have : List.Perm (Netdb.getNClosest t.target ids 10) ids := by
          have hs : List.Subperm (Netdb.getNClosest t.target ids 10) ids := n1.subperm hsub
          exact hs.perm_of_length_le (by omega)
        exact hout (this.mem_iff.mpr hin)
      · omega
    · intro g j hg
      rw [hget] at hg
      split at hg
      · rename_i hgi
        exact n4 g hgi r hin hout
      · cases hg

/-- The known floodfills have distinct ids. -/
theorem known_ok (chk : Bool) (t : Duration) (tunnels : List Lease) (key : Bytes) (num : Nat) (u : Bool) (ls : Bytes) (cmd : Bool) (ops : List Op) :
    ((State.new t tunnels key num u ls cmd).run chk ops).floodfills.Ok := by
  have hmap : ∀ (s : State) t, (s.turn chk t).1.floodfills = s.floodfills ∨ ∃ l, (s.turn chk t).1.floodfills = (s.gotClosest t l).floodfills := by
    intro s t
    unfold State.turn
    (repeat' split) <;> (try exact Or.inl rfl) <;> (try exact Or.inr ⟨_, rfl⟩)
    all_goals (first | (unfold State.again; split <;> exact Or.inl rfl) | (unfold State.sendStore; repeat' split) | (unfold State.sendLookup; repeat' split)) <;> exact Or.inl rfl
  have hturn : ∀ (s : State) t, s.floodfills.Ok → (s.turn chk t).1.floodfills.Ok := by
    intro s t h
    rcases hmap s t with e | ⟨l, e⟩
    · rw [e]; exact h
    · rw [e]; unfold State.gotClosest; dsimp only; exact AMap.ok_keep (m := s.floodfills.puts l) (AMap.ok_puts l h) _
  have hturns : ∀ n (s : State) t, s.floodfills.Ok → (s.turns chk n t).1.floodfills.Ok := by
    intro n
    induction n with
    | zero => intro s t h; exact h
    | succ n ih =>
      intro s t h
      have := hturn s (t 0) h
      unfold State.turns
      split
      · rename_i q e
        rw [e] at this
        exact ih q _ this
      · rename_i q e
        rw [e] at this
        exact this
  have hstep : ∀ (s : State) o, s.floodfills.Ok → (s.step chk o).floodfills.Ok := by
    intro s o h
    unfold State.step
    split
    · exact h
    · cases o with
      | tick t => exact h
      | leaseSet raw cmd => dsimp only; unfold State.registerLeaseSet; dsimp only; repeat' split
                            all_goals exact h
      | store key raw => dsimp only; unfold State.databaseStore; repeat' split
                         all_goals exact h
      | reply key routers known accept =>
        dsimp only
        unfold State.searchReply
        repeat' split
        · exact h
        · exact h
        · have : ∀ (rs : List Bytes) (q : State), (rs.foldl (fun s r => s.ask accept r) q).floodfills = q.floodfills := by
            intro rs
            induction rs with
            | nil => intro q; rfl
            | cons r rs ih => intro q; rw [List.foldl_cons, ih]; unfold State.ask; split <;> rfl
          rw [this]
          exact AMap.ok_puts _ h
      | built l => dsimp only; unfold State.inbound; dsimp only [State.out]; repeat' split
                   all_goals exact h
      | expiring id => dsimp only; unfold State.expire; repeat' split
                       all_goals exact h
      | expired id => exact h
      | poll t => exact hturns _ s t h
      | result r ok key => dsimp only; unfold State.result; dsimp only; repeat' split
                           all_goals first | exact h | exact AMap.ok_put h _ _
  unfold State.run
  have : ∀ (ops : List Op) (s : State), s.floodfills.Ok → (ops.foldl (State.step chk) s).floodfills.Ok := by
    intro ops
    induction ops with
    | nil => intro s h; exact h
    | cons o ops ih => intro s h; exact ih _ (hstep s o h)
  refine this ops _ ?_
  unfold State.new
  cases u <;> exact AMap.ok_nil

/-- Floodfills become known through replies to lookups of the published lease set and through queries that succeed, and in no other way between polls. -/
theorem C157_learned (chk : Bool) (s : State) (hd : s.done = false) (o : Op) (ho : ∀ t, o ≠ .poll t) (r : Bytes) :
    (s.step chk o).floodfills.get r = match o with
      | .reply key routers known _ => if s.unpublished = false ∧ s.key = key ∧ r ∈ routers ∧ (known r).isSome then known r else s.floodfills.get r
      | .result x ok key => if x = r ∧ ok = true ∧ x ∈ s.pending ∧ key.isSome then key else s.floodfills.get r
      | _ => s.floodfills.get r := by
  unfold State.step
  rw [hd, if_neg (by simp)]
  cases o with
  | poll t => exact absurd rfl (ho t)
  | tick t => rfl
  | leaseSet raw cmd => dsimp only; unfold State.registerLeaseSet; dsimp only; repeat' split
                        all_goals rfl
  | store key raw => dsimp only; unfold State.databaseStore; repeat' split
                     all_goals rfl
  | built l => dsimp only; unfold State.inbound; dsimp only [State.out]; repeat' split
               all_goals rfl
  | expiring id => dsimp only; unfold State.expire; repeat' split
                   all_goals rfl
  | expired id => rfl
  | result x ok key =>
    dsimp only
    unfold State.result
    dsimp only
    by_cases hx : x ∈ s.pending
    · rw [if_pos hx]
      cases ok with
      | false => simp
      | true =>
        cases key with
        | none => simp
        | some k =>
          simp only [if_true, AMap.get_put, hx, Option.isSome_some, and_true, true_and]
          by_cases h : r = x
          · rw [if_pos h, if_pos h.symm]
          · rw [if_neg h, if_neg (Ne.symm h)]
    · rw [if_neg hx, if_neg (fun h => hx h.2.2.1)]
  | reply key routers known accept =>
    dsimp only
    unfold State.searchReply
    cases hu : s.unpublished with
    | true => simp
    | false =>
      by_cases hk : s.key = key
      · rw [if_neg (by simp), if_neg (by simp [hk])]
        have : ∀ (rs : List Bytes) (q : State), (rs.foldl (fun s r => s.ask accept r) q).floodfills = q.floodfills := by
          intro rs
          induction rs with
          | nil => intro q; rfl
          | cons r rs ih => intro q; rw [List.foldl_cons, ih]; unfold State.ask; split <;> rfl
        rw [this]
        show (s.floodfills.puts _).get r = _
        rw [AMap.get_puts]
        have hfind : ∀ rs : List Bytes, AMap.get (rs.filterMap fun r => (known r).map fun k => (r, k)) r = if r ∈ rs then known r else none := by
          intro rs
          induction rs with
          | nil => rfl
          | cons x rs ih =>
            rw [List.filterMap_cons]
            cases hx : known x with
            | none =>
              simp only [Option.map_none]
              rw [ih]
              by_cases h : r = x
              · subst h; simp [hx]
              · simp [h]
            | some k =>
              simp only [Option.map_some]
              rw [AMap.get_cons, ih]
              by_cases h : x = r
              · subst h; simp [hx]
              · simp [h, Ne.symm h]
        rw [← List.filterMap_reverse, hfind]
        cases hkr : known r with
        | none => simp
        | some k =>
          by_cases hr : r ∈ routers
          · simp [hr, hk]
          · simp [hr]
      · rw [if_neg (by simp), if_pos hk, if_neg (fun h => hk h.2.1)]

/-- A floodfill that the lease set is sent to, or that is asked for it, is remembered, so that the next one is another one (`C157_closest`). -/
theorem C157_remembered (chk : Bool) (s : State) (t : Turn) (o : Out) (h : (s.turn chk t).1.log = s.log ++ [o]) :
    let s' := (s.turn chk t).1
    (∀ r, r ∈ s'.stored ↔ r ∈ s.stored ∨ ∃ a k ls l, o = .store a r k ls l) ∧ ∀ r, r ∈ s'.queried ↔ r ∈ s.queried ∨ (∃ a k ls l, o = .store a r k ls l) ∨ ∃ a k l, o = .lookup a r k l := by
  have hins : ∀ (l : List Bytes) (f r : Bytes), r ∈ ins l f ↔ r ∈ l ∨ r = f := by
    intro l f r
    unfold ins
    split
    · rename_i hf
      exact ⟨Or.inl, fun h => h.elim id fun e => e ▸ hf⟩
    · simp
  have hne : ∀ o, s.log ≠ s.log ++ [o] := fun o e => by simpa using congrArg List.length e
  intro s'
  have key : s' = (s.turn chk t).1 := rfl
  revert key
  revert s'
  revert h
  unfold State.turn
  (repeat' split) <;> intro h s' e <;> dsimp only at h e
  all_goals first
    | exact absurd h (hne o)
    | (unfold State.again at h; split at h <;> exact absurd h (hne o))
    | skip
  · unfold State.sendStore at h e
    split at h
    · exact absurd h (hne o)
    · rename_i f k l hm
      split at h
      · rename_i hp
        have ho : o = .store s.now f k s.leaseSet l := by
          have := (List.append_cancel_left h)
          cases this
          rfl
        simp only [hm, hp, if_true] at e
        rw [e]
        subst ho
        constructor
        · intro r
          refine (hins s.stored f r).trans ⟨fun x => x.elim Or.inl fun e => .inr ⟨_, _, _, _, by rw [e]⟩, fun x => x.elim Or.inl fun e => ?_⟩
          obtain ⟨a, k', ls, l', e⟩ := e
          cases e
          exact .inr rfl
        · intro r
          refine (hins s.queried f r).trans ⟨fun x => x.elim Or.inl fun e => .inr (.inl ⟨_, _, _, _, by rw [e]⟩), fun x => x.elim Or.inl fun e => ?_⟩
          rcases e with ⟨a, k', ls, l', e⟩ | ⟨a, k', l', e⟩
          · cases e
            exact .inr rfl
          · cases e
      · exact absurd h (hne o)
  · unfold State.sendLookup at h e
    split at h
    · exact absurd h (hne o)
    · rename_i f k l hm
      split at h
      · rename_i hp
        have ho : o = .lookup s.now f k l := by
          have := (List.append_cancel_left h)
          cases this
          rfl
        simp only [hm, hp, if_true] at e
        rw [e]
        subst ho
        constructor
        · intro r
          refine ⟨Or.inl, fun x => x.elim id fun e => ?_⟩
          obtain ⟨a, k', ls, l', e⟩ := e
          cases e
        · intro r
          refine (hins s.queried f r).trans ⟨fun x => x.elim Or.inl fun e => .inr (.inr ⟨_, _, _, by rw [e]⟩), fun x => x.elim Or.inl fun e => ?_⟩
          rcases e with ⟨a, k', ls, l', e⟩ | ⟨a, k', l', e⟩
          · cases e
          · cases e
            exact .inr rfl
      · exact absurd h (hne o)

end Emissary.Publish
