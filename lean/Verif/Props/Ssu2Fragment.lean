import Verif.Props.Ssu2Ack
import Verif.Lemmas.StreamTx
/-!
# C36, C37, C39, C72: SSU2 fragments, duplicate filters, delivery
-/
namespace Emissary.Ssu2
open Emissary Emissary.I2np Emissary.Stream
open Emissary.Tunnel (enum enum_get enum_sorted enum_values enum_length)

/-! ## C36: reassembly -/

/-- A message cut into at least two pieces. -/
structure Cut where
  type : MessageType
  mid : Nat
  exp : Nat
  ps : List Bytes
  two : 2 ≤ ps.length

namespace Cut

/-- The block that carries piece `i`. -/
def frag (c : Cut) (i : Nat) : MBlock :=
  if i = 0 then .first c.type c.mid c.exp (c.ps[0]?.getD [])
  else .followOn (i + 1 == c.ps.length) c.mid i (c.ps[i]?.getD [])

/-- The message put together. -/
def whole (c : Cut) : Message := { type := c.type, id := c.mid, expiration := fromSecs c.exp, payload := c.ps.flatten }

/-- A block that has nothing to do with this message. -/
def Foreign (c : Cut) : MBlock → Prop
  | .i2np m => m.id ≠ c.mid
  | .first _ mid _ _ => mid ≠ c.mid
  | .followOn _ mid _ _ => mid ≠ c.mid

/-- Entry after the fragments with index in `D` have arrived. -/
structure Entry (c : Cut) (D : Nat → Prop) (f : Fragment) : Prop where
  info : D 0 → f.info = some (c.type, c.mid, c.exp)
  info' : ¬ D 0 → f.info = none
  num : D (c.ps.length - 1) → f.num = some c.ps.length
  num' : ¬ D (c.ps.length - 1) → f.num = none
  sorted : OMap.Sorted f.frags
  get : ∀ k v, f.frags.get? k = some v → D k ∧ c.ps[k]? = some v
  get' : ∀ k, k < c.ps.length → D k → f.frags.get? k ≠ none

theorem Entry.congr {c : Cut} {D D' : Nat → Prop} {f : Fragment} (h : c.Entry D f) (hd : ∀ i, D i ↔ D' i) :
    c.Entry D' f := by
  have : D = D' := funext (fun i => propext (hd i))
  exact this ▸ h

theorem entry_empty (c : Cut) : c.Entry (fun _ => False) {} := by
  constructor <;> simp [OMap.Sorted]

/-- What a fragment does to its entry. -/
def add (f : Fragment) : MBlock → Fragment
  | .i2np _ => f
  | .first ty mid exp p => { f with frags := f.frags.ins 0 p, info := some (ty, mid, exp) }
  | .followOn last _ seq p => { f with frags := f.frags.ins seq p, num := if last then some (seq + 1) else f.num }

theorem piece_get (c : Cut) {i : Nat} (hi : i < c.ps.length) : c.ps[i]? = some (c.ps[i]?.getD []) := by
  simp [List.getElem?_eq_getElem hi]

theorem Entry.add {c : Cut} {D : Nat → Prop} {f : Fragment} (h : c.Entry D f) (i : Nat) (hi : i < c.ps.length) :
    c.Entry (fun j => D j ∨ j = i) (add f (c.frag i)) := by
  have h2 := c.two
  have hget : ∀ k v, (f.frags.ins i (c.ps[i]?.getD [])).get? k = some v → (D k ∨ k = i) ∧ c.ps[k]? = some v := by
    intro k v hk
    simp only [OMap.get?_ins] at hk
    split at hk
    · rename_i hki
      have hki' : k = i := by omega
      subst hki'
      simp only [Option.some.injEq] at hk
      exact ⟨Or.inr rfl, by rw [← hk]; exact c.piece_get hi⟩
    · obtain ⟨a, b⟩ := h.get k v hk; exact ⟨Or.inl a, b⟩
  have hget' : ∀ k, k < c.ps.length → (D k ∨ k = i) → (f.frags.ins i (c.ps[i]?.getD [])).get? k ≠ none := by
    intro k hk hd
    simp only [OMap.get?_ins]
    split
    · simp
    · rename_i hne
      rcases hd with hd | hd
      · exact h.get' k hk hd
      · omega
  simp only [frag]
  by_cases h0 : i = 0
  · subst h0
    simp only [if_true, Cut.add]
    constructor
    · intro _; rfl
    · intro hd; exact absurd (Or.inr rfl) hd
    · rintro (hd | hd)
      · exact h.num hd
      · omega
    · intro hd; exact h.num' (fun hd' => hd (Or.inl hd'))
    · exact OMap.sorted_ins h.sorted
    · exact hget
    · exact hget'
  · simp only [h0, if_false, Cut.add]
    constructor
    · rintro (hd | hd)
      · exact h.info hd
      · omega
    · intro hd; exact h.info' (fun hd' => hd (Or.inl hd'))
    · intro hd
      by_cases hl : i + 1 = c.ps.length
      · simp [hl]
      · simp only [beq_iff_eq, hl, if_false]
        rcases hd with hd | hd
        · exact h.num hd
        · omega
    · intro hd
      have hl : ¬ i + 1 = c.ps.length := fun hl => hd (Or.inr (by omega))
      simp only [beq_iff_eq, hl, if_false]
      exact h.num' (fun hd' => hd (Or.inl hd'))
    · exact OMap.sorted_ins h.sorted
    · exact hget
    · exact hget'

theorem Entry.frags_all {c : Cut} {D : Nat → Prop} {f : Fragment} (h : c.Entry D f) (hall : ∀ i, i < c.ps.length → D i) :
    f.frags = enum 0 c.ps := by
  refine OMap.sorted_ext h.sorted (enum_sorted _ _) (fun k => ?_)
  rw [enum_get, if_pos (Nat.zero_le _), Nat.sub_zero]
  rcases Nat.lt_or_ge k c.ps.length with hk | hk
  · have := h.get' k hk (hall k hk)
    obtain ⟨v, hv⟩ := Option.ne_none_iff_exists'.mp this
    rw [hv, (h.get k v hv).2]
  · rw [List.getElem?_eq_none hk]
    rcases Option.eq_none_or_eq_some (OMap.get? k f.frags) with hg | ⟨v, hg⟩
    · exact hg
    · have := (h.get k v hg).2
      rw [List.getElem?_eq_none hk] at this; simp at this

/-- The entry is ready exactly when every fragment has arrived. -/
theorem Entry.ready {c : Cut} {D : Nat → Prop} {f : Fragment} (h : c.Entry D f) :
    f.isReady = true ↔ ∀ i, i < c.ps.length → D i := by
  have h2 := c.two
  constructor
  · intro hr
    simp only [Fragment.isReady, Bool.and_eq_true, beq_iff_eq] at hr
    obtain ⟨⟨r1, r2⟩, r4⟩ := hr
    have hn : D (c.ps.length - 1) := by
      by_cases hd : D (c.ps.length - 1)
      · exact hd
      · rw [h.num' hd] at r1; simp at r1
    rw [h.num hn] at r4
    have hlen : f.frags.length = c.ps.length := by simpa using r4.symm
    intro i hi
    have hnd := OMap.keys_nodup h.sorted
    have hks : ∀ x ∈ f.frags.keys, x ∈ List.range c.ps.length := by
      intro x hx
      obtain ⟨v, hv⟩ := Option.isSome_iff_exists.mp (OMap.mem_keys.mp hx)
      have a3 := (h.get x v hv).2
      rw [List.mem_range]
      rcases Nat.lt_or_ge x c.ps.length with h' | h'
      · exact h'
      · rw [List.getElem?_eq_none h'] at a3; simp at a3
    have hl : f.frags.keys.length = (List.range c.ps.length).length := by simp [OMap.keys, hlen]
    have hperm : f.frags.keys.Perm (List.range c.ps.length) :=
      (hnd.subperm hks).perm_of_length_le (by omega)
    obtain ⟨v, hv⟩ := Option.isSome_iff_exists.mp (OMap.mem_keys.mp (hperm.mem_iff.mpr (List.mem_range.mpr hi)))
    exact (h.get i v hv).1
  · intro hall
    simp [Fragment.isReady, h.num (hall _ (by omega)), h.info (hall 0 (by omega)), h.frags_all hall, enum_length]

theorem Entry.construct {c : Cut} {D : Nat → Prop} {f : Fragment} (h : c.Entry D f) (hall : ∀ i, i < c.ps.length → D i) :
    f.construct = some c.whole := by
  have h2 := c.two
  simp only [Fragment.construct, h.info (hall 0 (by omega)), h.frags_all hall, enum_values, Option.map_some, whole]

theorem block_frag (c : Cut) (h : Handler) (i : Nat) :
    h.block (c.frag i) = h.settle c.mid (add ((h c.mid).getD {}) (c.frag i)) := by
  simp only [frag]; split <;> rfl

theorem settle_other (h : Handler) (mid k : Nat) (f : Fragment) (hne : k ≠ mid) : (h.settle mid f).1 k = h k := by
  simp only [Handler.settle]; split <;> simp [Handler.upd, hne]

theorem block_foreign (c : Cut) (h : Handler) (b : MBlock) (hb : c.Foreign b) : (h.block b).1 c.mid = h c.mid := by
  cases b with
  | i2np m => rfl
  | first ty mid exp p => exact settle_other h mid c.mid _ (Ne.symm hb)
  | followOn last mid num p => exact settle_other h mid c.mid _ (Ne.symm hb)

/-- A foreign block completes no message with this identifier. -/
theorem foreign_out (c : Cut) (h : Handler) (hids : ∀ k f, h k = some f → ∀ i, f.info = some i → i.2.1 = k)
    (b : MBlock) (hb : c.Foreign b) : ∀ m, (h.block b).2 = some m → m.id ≠ c.mid := by
  intro m hm
  have key : ∀ mid (f : Fragment), mid ≠ c.mid → (∀ i, f.info = some i → i.2.1 = mid) → (h.settle mid f).2 = some m → m.id ≠ c.mid := by
    intro mid f hne hi hs
    simp only [Handler.settle] at hs
    split at hs
    · simp only [Fragment.construct, Option.map_eq_some_iff] at hs
      obtain ⟨i, e1, rfl⟩ := hs
      simp only [hi i e1]; exact hne
    · simp at hs
  have hget : ∀ mid i, ((h mid).getD {}).info = some i → i.2.1 = mid := by
    intro mid i hi
    cases e : h mid with
    | none => rw [e] at hi; simp at hi
    | some f => rw [e] at hi; exact hids mid f e i hi
  cases b with
  | i2np m' => simp only [Handler.block, Option.some.injEq] at hm; subst hm; exact hb
  | first ty mid exp p => exact key mid _ hb (by intro i hi; simp only [Option.some.injEq] at hi; rw [← hi]) hm
  | followOn last mid num p =>
    simp only [Handler.block, Handler.followOn] at hm
    refine key mid _ hb ?_ hm
    intro i hi; exact hget mid i hi

theorem frag_inj (c : Cut) {i j : Nat} (h : c.frag i = c.frag j) : i = j := by
  simp only [frag] at h
  split at h <;> split at h <;> simp at h <;> omega

theorem frag_not_foreign (c : Cut) (i : Nat) : ¬ c.Foreign (c.frag i) := by
  simp only [frag]; split <;> simp [Foreign]

/-- Handler entry after the blocks `bs`, while some fragment is missing. -/
def Holds (c : Cut) (bs : List MBlock) (h : Handler) : Prop :=
  c.Entry (fun i => i < c.ps.length ∧ c.frag i ∈ bs) ((h c.mid).getD {})

/-- One fragment arrives. -/
theorem fragment_step (c : Cut) (h : Handler) (bs : List MBlock) (hh : c.Holds bs h) (i : Nat) (hi : i < c.ps.length) :
    ((∀ j, j < c.ps.length → c.frag j ∈ bs ++ [c.frag i]) → h.block (c.frag i) = (h.upd c.mid none, some c.whole)) ∧
    ((∃ j, j < c.ps.length ∧ c.frag j ∉ bs ++ [c.frag i]) →
      (h.block (c.frag i)).2 = none ∧ c.Holds (bs ++ [c.frag i]) (h.block (c.frag i)).1) := by
  have he := (hh.add i hi).congr (D' := fun j => j < c.ps.length ∧ c.frag j ∈ bs ++ [c.frag i]) (fun j => by
    constructor
    · rintro (⟨a, b⟩ | rfl)
      · exact ⟨a, by simp [b]⟩
      · exact ⟨hi, by simp⟩
    · rintro ⟨a, b⟩
      rcases List.mem_append.mp b with b | b
      · exact Or.inl ⟨a, b⟩
      · exact Or.inr (c.frag_inj (by simpa using b)))
  rw [c.block_frag h i]
  refine ⟨fun hall => ?_, fun ⟨j, hj, hnd⟩ => ?_⟩
  · have hr := he.ready.mpr (fun j hj => ⟨hj, hall j hj⟩)
    have hcon := he.construct (fun j hj => ⟨hj, hall j hj⟩)
    simp only [Handler.settle, hr, if_true, hcon]
  · have hr : ¬ ((add ((h c.mid).getD {}) (c.frag i)).isReady = true) := by
      intro hr; exact hnd (he.ready.mp hr j hj).2
    simp only [Handler.settle, hr, Bool.false_eq_true, if_false]
    refine ⟨trivial, ?_⟩
    simp only [Holds, Handler.upd, if_true, Option.getD_some]
    exact he

theorem foreign_step (c : Cut) (h : Handler) (bs : List MBlock) (hh : c.Holds bs h) (b : MBlock) (hb : c.Foreign b) :
    c.Holds (bs ++ [b]) (h.block b).1 := by
  simp only [Holds, c.block_foreign h b hb]
  refine Entry.congr hh (fun i => ?_)
  constructor
  · rintro ⟨a, b⟩; exact ⟨a, by simp [b]⟩
  · rintro ⟨a, hb'⟩
    refine ⟨a, ?_⟩
    rcases List.mem_append.mp hb' with hb' | hb'
    · exact hb'
    · exfalso
      have : c.frag i = b := by simpa using hb'
      exact c.frag_not_foreign i (this ▸ hb)

end Cut

/-- What happens to a fragment handler. -/
inductive HOp where
  | block (b : MBlock)
  | collect (stale : List Nat)

def Handler.step (h : Handler) : HOp → Handler × Option Message
  | .block b => h.block b
  | .collect stale => (h.collect stale, none)

/-- The handler after the operations, and what each handed over. -/
def Handler.run (h : Handler) : List HOp → Handler × List (Option Message)
  | [] => (h, [])
  | o :: os => (((h.step o).1.run os).1, (h.step o).2 :: ((h.step o).1.run os).2)

/-- The blocks among the operations. -/
def blocksOf (ops : List HOp) : List MBlock :=
  ops.filterMap (fun o => match o with | .block b => some b | .collect _ => none)

/-- Operations: fragments of this message, foreign blocks, collection of other stale messages. -/
def Cut.Ops (c : Cut) (ops : List HOp) : Prop :=
  ∀ o ∈ ops, match o with
    | .block b => (∃ i, i < c.ps.length ∧ b = c.frag i) ∨ c.Foreign b
    | .collect stale => c.mid ∉ stale

theorem run_append (h : Handler) (a b : List HOp) :
    h.run (a ++ b) = (((h.run a).1.run b).1, (h.run a).2 ++ ((h.run a).1.run b).2) := by
  induction a generalizing h with
  | nil => rfl
  | cons x a ih => simp only [List.cons_append, Handler.run, ih]

theorem run_length (h : Handler) (a : List HOp) : (h.run a).2.length = a.length := by
  induction a generalizing h with
  | nil => rfl
  | cons x a ih => simp only [Handler.run, List.length_cons, ih]

theorem Cut.incomplete (c : Cut) (h : Handler) (hfree : h c.mid = none) (ops : List HOp) (hops : c.Ops ops)
    (hmiss : ∃ i, i < c.ps.length ∧ c.frag i ∉ blocksOf ops) :
    c.Holds (blocksOf ops) (h.run ops).1 ∧
    ∀ (j i : Nat), i < c.ps.length → ops[j]? = some (.block (c.frag i)) → (h.run ops).2[j]? = some none := by
  obtain ⟨m, hm, hmiss⟩ := hmiss
  induction ops using List.reverseRecOn with
  | nil =>
    refine ⟨?_, by simp⟩
    simp only [Holds, Handler.run, hfree, Option.getD_none]
    exact (entry_empty c).congr (by simp [blocksOf])
  | append_singleton ops o ih =>
    have hbo : blocksOf (ops ++ [o]) = blocksOf ops ++ blocksOf [o] := by simp only [blocksOf, List.filterMap_append]
    rw [hbo] at hmiss ⊢
    obtain ⟨i1, i2⟩ := ih (fun x hx => hops x (by simp [hx])) (fun hx => hmiss (by simp [hx]))
    have ho := hops o (by simp)
    have hout : (h.run (ops ++ [o])).2 = (h.run ops).2 ++ [((h.run ops).1.step o).2] := by rw [run_append]; rfl
    have hst : (h.run (ops ++ [o])).1 = ((h.run ops).1.step o).1 := by rw [run_append]; rfl
    have hlen := run_length h ops
    have hlast : (h.run (ops ++ [o])).2[ops.length]? = some ((h.run ops).1.step o).2 := by
      rw [hout, List.getElem?_append_right (by omega)]; simp [hlen]
    have hprev : ∀ (j i : Nat), i < c.ps.length → j < ops.length → (ops ++ [o])[j]? = some (.block (c.frag i)) →
        (h.run (ops ++ [o])).2[j]? = some none := by
      intro j i hi hlt hj
      rw [List.getElem?_append_left hlt] at hj
      rw [hout, List.getElem?_append_left (by omega)]
      exact i2 j i hi hj
    have hidx : ∀ j x, (ops ++ [o])[j]? = some x → j < ops.length ∨ (j = ops.length ∧ x = o) := by
      intro j x hj
      rcases Nat.lt_or_ge j ops.length with hlt | hge
      · exact Or.inl hlt
      · rw [List.getElem?_append_right hge] at hj
        right
        rcases Nat.lt_or_ge ops.length j with h' | h'
        · rw [List.getElem?_eq_none (by simp; omega)] at hj; simp at hj
        · have : j = ops.length := by omega
          subst this
          exact ⟨rfl, by simpa using hj.symm⟩
    cases o with
    | block b =>
      have hb1 : blocksOf [HOp.block b] = [b] := rfl
      rw [hb1] at hmiss ⊢
      rcases ho with ⟨i, hi, rfl⟩ | hf
      · obtain ⟨_, s2⟩ := c.fragment_step (h.run ops).1 (blocksOf ops) i1 i hi
        obtain ⟨o, hh⟩ := s2 ⟨m, hm, hmiss⟩
        refine ⟨hst ▸ hh, ?_⟩
        intro j i' hi' hj
        rcases hidx j _ hj with hlt | ⟨rfl, _⟩
        · exact hprev j i' hi' hlt hj
        · rw [hlast]; exact congrArg some o
      · refine ⟨hst ▸ c.foreign_step _ _ i1 b hf, ?_⟩
        intro j i' hi' hj
        rcases hidx j _ hj with hlt | ⟨rfl, e⟩
        · exact hprev j i' hi' hlt hj
        · simp only [HOp.block.injEq] at e
          exact absurd hf (e ▸ c.frag_not_foreign i')
    | collect stale =>
      have hb1 : blocksOf [HOp.collect stale] = [] := rfl
      rw [hb1, List.append_nil]
      refine ⟨?_, ?_⟩
      · rw [hst]
        simp only [Holds, Handler.step, Handler.collect]
        rw [if_neg ho]; exact i1
      · intro j i' hi' hj
        rcases hidx j _ hj with hlt | ⟨rfl, e⟩
        · exact hprev j i' hi' hlt hj
        · simp at e

/-- C36: whatever the order in which the fragments of a message arrive, however often each arrives before the message is complete,
whatever blocks of other messages come in between and whatever other stale messages are collected: nothing is handed over for the message
while a fragment is missing, and the moment the last missing one arrives the message is handed over, with the
pieces in order, and forgotten. -/
theorem C36_reassembly_any_order (c : Cut) (h : Handler) (hfree : h c.mid = none) (ops : List HOp) (hops : c.Ops ops)
    (last : Nat) (hl : last < c.ps.length) (hmiss : c.frag last ∉ blocksOf ops)
    (hall : ∀ i, i < c.ps.length → i ≠ last → c.frag i ∈ blocksOf ops) :
    (∀ (j i : Nat), i < c.ps.length → ops[j]? = some (.block (c.frag i)) → (h.run ops).2[j]? = some none) ∧
    ((h.run ops).1.block (c.frag last)).2 = some c.whole ∧
    ((h.run ops).1.block (c.frag last)).1 c.mid = none := by
  obtain ⟨i1, i2⟩ := c.incomplete h hfree ops hops ⟨last, hl, hmiss⟩
  obtain ⟨s1, _⟩ := c.fragment_step (h.run ops).1 _ i1 last hl
  have := s1 (fun j hj => by
    by_cases hjl : j = last
    · subst hjl; simp
    · simp [hall j hj hjl])
  rw [this]
  exact ⟨i2, rfl, by simp [Handler.upd]⟩

/-- Three fragments arriving last first, one of them twice, with a foreign fragment in between. -/
def Cut.sample : Cut := ⟨.data, 7, 100, [[1], [2, 3], [4]], by decide⟩

example : ((Handler.run (fun _ => none) [.block (Cut.sample.frag 2), .block (.first .data 8 1 [9]), .block (Cut.sample.frag 0),
    .collect [8], .block (Cut.sample.frag 2)]).1.block (Cut.sample.frag 1)).2 = some Cut.sample.whole :=
  (C36_reassembly_any_order Cut.sample (fun _ => none) rfl _ (by
    intro o ho
    simp only [List.mem_cons, List.not_mem_nil, or_false] at ho
    rcases ho with rfl | rfl | rfl | rfl | rfl
    · exact Or.inl ⟨2, by decide, rfl⟩
    · exact Or.inr (by simp [Cut.Foreign, Cut.sample])
    · exact Or.inl ⟨0, by decide, rfl⟩
    · decide
    · exact Or.inl ⟨2, by decide, rfl⟩) 1 (by decide) (by decide) (by
      intro i hi hne
      have : i = 0 ∨ i = 2 := by simp [Cut.sample] at hi; omega
      rcases this with rfl | rfl <;> decide)).2.1

/-! ## C37: the duplicate filter -/

/-- What happens to a duplicate filter. -/
inductive DOp where
  | insert (id : Nat)
  | decay
deriving DecidableEq

/-- The state and the answers (an operation with `true`: an identifier was accepted as fresh). -/
def Dup.runT (d : Dup) : List DOp → Dup × List (DOp × Bool)
  | [] => (d, [])
  | .insert id :: os => let r := (d.insert id).1.runT os; (r.1, (.insert id, (d.insert id).2) :: r.2)
  | .decay :: os => let r := d.decay.runT os; (r.1, (.decay, false) :: r.2)

/-- The part of a history after its last decay. -/
def sinceLast {α : Type} (isDecay : α → Bool) (l : List α) : List α := (l.reverse.takeWhile (fun x => !isDecay x)).reverse

/-- The part of a history up to its last decay (empty if there was none). -/
def beforeLast {α : Type} (isDecay : α → Bool) (l : List α) : List α := ((l.reverse.dropWhile (fun x => !isDecay x)).drop 1).reverse

/-- The two generations the filter covers. -/
def twoGenerations {α : Type} (isDecay : α → Bool) (l : List α) : List α :=
  sinceLast isDecay (beforeLast isDecay l) ++ sinceLast isDecay l

def isD (e : DOp × Bool) : Bool := e.1 == .decay

theorem since_snoc {α : Type} (p : α → Bool) (l : List α) (x : α) :
    sinceLast p (l ++ [x]) = if p x then [] else sinceLast p l ++ [x] := by
  simp only [sinceLast, List.reverse_append, List.reverse_singleton, List.singleton_append, List.takeWhile_cons]
  cases p x <;> simp

theorem before_snoc {α : Type} (p : α → Bool) (l : List α) (x : α) :
    beforeLast p (l ++ [x]) = if p x then l else beforeLast p l := by
  simp only [beforeLast, List.reverse_append, List.reverse_singleton, List.singleton_append, List.dropWhile_cons]
  cases p x <;> simp

theorem runT_append (d : Dup) (a b : List DOp) :
    d.runT (a ++ b) = (((d.runT a).1.runT b).1, (d.runT a).2 ++ ((d.runT a).1.runT b).2) := by
  induction a generalizing d with
  | nil => rfl
  | cons x a ih => cases x <;> simp only [List.cons_append, Dup.runT, ih]

theorem runT_fst (d : Dup) (a : List DOp) : (d.runT a).2.map (·.1) = a := by
  induction a generalizing d with
  | nil => rfl
  | cons x a ih => cases x <;> simp [Dup.runT, ih]

/-- The filter holds what was accepted in the two latest generations. -/
theorem dup_inv (ops : List DOp) (x : Nat) :
    (x ∈ (Dup.runT {} ops).1.current ↔ (DOp.insert x, true) ∈ sinceLast isD (Dup.runT {} ops).2) ∧
    (x ∈ (Dup.runT {} ops).1.previous ↔ (DOp.insert x, true) ∈ sinceLast isD (beforeLast isD (Dup.runT {} ops).2)) := by
  induction ops using List.reverseRecOn with
  | nil => simp [Dup.runT, sinceLast, beforeLast]
  | append_singleton ops o ih =>
    rw [runT_append]
    generalize hr : Dup.runT {} ops = r at *
    cases o with
    | insert id =>
      simp only [Dup.runT, since_snoc, before_snoc, isD]
      have hne : ((DOp.insert id == DOp.decay) = true) = False := by simp
      simp only [hne, if_false, List.mem_append, List.mem_singleton, Prod.mk.injEq, DOp.insert.injEq]
      have hins : (r.1.insert id).1.previous = r.1.previous ∧
          (x ∈ (r.1.insert id).1.current ↔ x ∈ r.1.current ∨ (x = id ∧ (r.1.insert id).2 = true)) := by
        simp only [Dup.insert]
        split
        · simp
        · simp [or_comm]
      refine ⟨?_, ?_⟩
      · rw [hins.2, ih.1]
        constructor
        · rintro (h | ⟨h1, h2⟩)
          · exact Or.inl h
          · exact Or.inr ⟨h1, h2.symm⟩
        · rintro (h | ⟨h1, h2⟩)
          · exact Or.inl h
          · exact Or.inr ⟨h1, h2.symm⟩
      · rw [hins.1]; exact ih.2
    | decay =>
      simp only [Dup.runT, since_snoc, before_snoc, isD, Dup.decay]
      simp only [beq_self_eq_true, if_true]
      exact ⟨by simp, ih.1⟩

/-- C37 (partial): after every history of messages and decays, a message identifier is accepted as fresh exactly when it has not been
accepted in the current or the previous generation of the filter. In particular one that did not
occur at all in these two generations is never reported as a duplicate, and one accepted in them always is.
Missing: identifiers that occurred, but were rejected, in these generations (`C37_rejected_not_remembered_violated`). -/
theorem C37_fresh_iff_not_accepted_recently_partial (ops : List DOp) (x : Nat) :
    ((Dup.runT {} ops).1.insert x).2 = true ↔ (DOp.insert x, true) ∉ twoGenerations isD (Dup.runT {} ops).2 := by
  obtain ⟨h1, h2⟩ := dup_inv ops x
  simp only [twoGenerations, List.mem_append, ← h1, ← h2, Dup.insert]
  simp only [List.contains_eq_mem, Bool.or_eq_true, decide_eq_true_eq]
  by_cases ha : x ∈ (Dup.runT {} ops).1.current <;> by_cases hb : x ∈ (Dup.runT {} ops).1.previous <;> simp [ha, hb]

/-- The operations of two generations. -/
def isDO (o : DOp) : Bool := o == .decay

theorem map_since (l : List (DOp × Bool)) : (sinceLast isD l).map (·.1) = sinceLast isDO (l.map (·.1)) := by
  induction l using List.reverseRecOn with
  | nil => rfl
  | append_singleton l x ih =>
    simp only [List.map_append, List.map_cons, List.map_nil, since_snoc, ← ih]
    have hx : isDO x.1 = isD x := rfl
    rw [hx]
    cases isD x <;> simp

theorem map_before (l : List (DOp × Bool)) : (beforeLast isD l).map (·.1) = beforeLast isDO (l.map (·.1)) := by
  induction l using List.reverseRecOn with
  | nil => rfl
  | append_singleton l x ih =>
    simp only [List.map_append, List.map_cons, List.map_nil, before_snoc, ← ih]
    have hx : isDO x.1 = isD x := rfl
    rw [hx]
    cases isD x <;> simp

/-- C37: an identifier that did not occur in the two latest generations is never reported as a duplicate. -/
theorem C37_fresh_accepted (ops : List DOp) (x : Nat) (h : DOp.insert x ∉ twoGenerations isDO ops) :
    ((Dup.runT {} ops).1.insert x).2 = true := by
  rw [C37_fresh_iff_not_accepted_recently_partial]
  intro hm
  apply h
  have hf := runT_fst {} ops
  simp only [twoGenerations, List.mem_append] at hm ⊢
  rw [← hf, ← map_before, ← map_since, ← map_since, List.mem_map, List.mem_map]
  rcases hm with hm | hm
  · exact Or.inl ⟨_, hm, rfl⟩
  · exact Or.inr ⟨_, hm, rfl⟩

/-- C37: an identifier that occurred since the last decay is always reported as a duplicate. -/
theorem C37_duplicate_in_generation_rejected (ops more : List DOp) (x : Nat) (h : DOp.decay ∉ more) :
    ((Dup.runT {} (ops ++ .insert x :: more)).1.insert x).2 = false := by
  have key : ∀ (more : List DOp) (d : Dup), DOp.decay ∉ more → (x ∈ d.current ∨ x ∈ d.previous) →
      x ∈ (d.runT more).1.current ∨ x ∈ (d.runT more).1.previous := by
    intro more
    induction more with
    | nil => intro d _ h; exact h
    | cons o more ih =>
      intro d hd hx
      cases o with
      | decay => simp at hd
      | insert y =>
        simp only [Dup.runT]
        apply ih _ (fun hm => hd (by simp [hm]))
        simp only [Dup.insert]
        split
        · exact hx
        · rcases hx with hx | hx
          · exact Or.inl (by simp [hx])
          · exact Or.inr hx
  rw [runT_append]
  simp only [Dup.runT]
  generalize hd : (Dup.runT {} ops).1 = d
  have hx : x ∈ (d.insert x).1.current ∨ x ∈ (d.insert x).1.previous := by
    simp only [Dup.insert]
    split
    · rename_i hc; simpa using hc
    · simp
  have := key more _ h hx
  generalize ((d.insert x).1.runT more).1 = d' at this
  simp only [Dup.insert]
  rw [if_pos (by simpa using this)]

example : ((Dup.runT {} [.insert 1, .decay, .insert 2, .insert 1, .insert 3]).1.insert 1).2 = false :=
  C37_duplicate_in_generation_rejected [.insert 1, .decay, .insert 2] [.insert 3] 1 (by decide)
example : ((Dup.runT {} [.insert 1, .decay, .insert 2, .decay, .insert 3]).1.insert 1).2 = true :=
  C37_fresh_accepted _ 1 (by decide)
example : ((Dup.runT {} [.insert 1, .decay, .insert 2]).1.insert 1).2 = false := by decide

/-- C37 violated: a message that arrives in one generation, again in the next (where it is rejected) and again in the third is accepted a
second time, although it occurred in the generation just before. -/
theorem C37_rejected_not_remembered_violated (x : Nat) :
    DOp.insert x ∈ twoGenerations isDO [DOp.insert x, .decay, .insert x, .decay] ∧
    ((Dup.runT {} [DOp.insert x, .decay, .insert x, .decay]).1.insert x).2 = true := by
  constructor
  · simp [twoGenerations, sinceLast, beforeLast, isDO]
  · simp [Dup.runT, Dup.insert, Dup.decay]

/-! ## C39: the Bloom filter -/

/-- What happens to a Bloom filter. -/
inductive BOp where
  | insert (x : Bytes)
  | decay

def Bloom.step (hash : Bytes → List Nat) (b : Bloom) : BOp → Bloom
  | .insert x => (b.insert hash x).1
  | .decay => b.decay

def Bloom.run (hash : Bytes → List Nat) (b : Bloom) (ops : List BOp) : Bloom := ops.foldl (Bloom.step hash) b

def BOp.isDecay : BOp → Bool
  | .insert _ => false
  | .decay => true

theorem contains_accrue (b : Bits) (bits more : List Nat) (h : b.contains bits = true) : (b.accrue more).contains bits = true := by
  simp only [Bits.contains, List.all_eq_true, Bits.accrue, Bool.or_eq_true] at h ⊢
  exact fun i hi => Or.inl (h i hi)

theorem contains_self (b : Bits) (bits : List Nat) : (b.accrue bits).contains bits = true := by
  simp only [Bits.contains, List.all_eq_true, Bits.accrue, Bool.or_eq_true]
  exact fun i hi => Or.inr (by simpa using hi)

theorem bloom_current (hash : Bytes → List Nat) (bits : List Nat) (ops : List BOp) (b : Bloom)
    (hd : ∀ o ∈ ops, o.isDecay = false) : (b.current.contains bits = true → (b.run hash ops).current.contains bits = true) ∧
    (b.run hash ops).previous = b.previous := by
  induction ops generalizing b with
  | nil => exact ⟨id, rfl⟩
  | cons o ops ih =>
    cases o with
    | decay => have := hd .decay (by simp); simp [BOp.isDecay] at this
    | insert y =>
      obtain ⟨i1, i2⟩ := ih (b.insert hash y).1 (fun o ho => hd o (by simp [ho]))
      have hins : (b.current.contains bits = true → (b.insert hash y).1.current.contains bits = true) ∧
          (b.insert hash y).1.previous = b.previous := by
        simp only [Bloom.insert]
        split
        · exact ⟨id, rfl⟩
        · exact ⟨fun h => contains_accrue _ _ _ h, rfl⟩
      exact ⟨fun h => i1 (hins.1 h), i2.trans hins.2⟩

/-- C39: an element accepted by the filter is reported as present by every later insertion as long as
the filter has decayed at most once since, for every hash function and history. -/
theorem C39_no_false_negatives (hash : Bytes → List Nat) (b : Bloom) (x : Bytes) (hacc : (b.insert hash x).2 = true)
    (ops : List BOp) (hd : (ops.filter BOp.isDecay).length ≤ 1) :
    (((b.insert hash x).1.run hash ops).insert hash x).2 = false := by
  have hin : (b.insert hash x).1.current.contains (hash x) = true := by
    simp only [Bloom.insert] at hacc ⊢
    split
    · rename_i h; rw [if_pos h] at hacc; simp at hacc
    · exact contains_self _ _
  have hnil : ∀ (l : List BOp), (l.filter BOp.isDecay).length = 0 → ∀ o ∈ l, o.isDecay = false := by
    intro l hl o ho
    have := List.filter_eq_nil_iff.mp (List.length_eq_zero_iff.mp hl) o ho
    simpa using this
  have key : ∀ (ops : List BOp) (b : Bloom), (ops.filter BOp.isDecay).length ≤ 1 → b.current.contains (hash x) = true →
      (b.run hash ops).current.contains (hash x) = true ∨ (b.run hash ops).previous.contains (hash x) = true := by
    intro ops
    induction ops with
    | nil => intro b _ h; exact Or.inl h
    | cons o ops ih =>
      intro b hl h
      cases o with
      | insert y =>
        exact ih _ (by simpa [BOp.isDecay] using hl) ((bloom_current hash (hash x) [.insert y] b (by simp [BOp.isDecay])).1 h)
      | decay =>
        have hno := hnil ops (by
          have e : (BOp.decay :: ops).filter BOp.isDecay = BOp.decay :: ops.filter BOp.isDecay := rfl
          rw [e, List.length_cons] at hl; omega)
        right
        have := (bloom_current hash (hash x) ops b.decay hno).2
        show (b.decay.run hash ops).previous.contains (hash x) = true
        rw [this]; exact h
  have := key ops _ hd hin
  generalize (b.insert hash x).1.run hash ops = b' at this
  simp only [Bloom.insert]
  rw [if_pos (by simpa using this)]

/-- C39: an empty filter accepts every element whose hash sets a bit (the hash used sets three). -/
theorem C39_fresh_filter_accepts (hash : Bytes → List Nat) (x : Bytes) (h : hash x ≠ []) :
    (Bloom.insert hash {} x).2 = true := by
  have : Bits.contains (fun _ => false) (hash x) = false := by
    cases hh : hash x with
    | nil => exact absurd hh h
    | cons a t => simp [Bits.contains]
  simp [Bloom.insert, this]

/-- A toy hash: every byte is a bit. -/
def toyHash (x : Bytes) : List Nat := x.map (·.toNat)

example : (((Bloom.insert toyHash {} [1, 2]).1.run toyHash [.insert [3], .decay, .insert [4]]).insert toyHash [1, 2]).2 = false :=
  C39_no_false_negatives toyHash {} [1, 2] (C39_fresh_filter_accepts _ _ (by decide)) _ (by decide)

/-! ## C72: a message sent is delivered exactly once -/

/-- The identifier of the message a block belongs to. -/
def MBlock.mid : MBlock → Nat
  | .i2np m => m.id
  | .first _ mid _ _ => mid
  | .followOn _ mid _ _ => mid

/-- The messages with identifier `x` handed on so far. -/
def Rx.delivered (s : Rx) (x : Nat) : List Message := s.out.filter (fun m => m.id == x)

/-- Operations that neither carry a block of message `x` nor collect it. -/
def RxOp.Other (x : Nat) : RxOp → Prop
  | .block b => b.mid ≠ x
  | .decay => True
  | .collect stale => x ∉ stale

def RxOp.isDecay : RxOp → Bool
  | .decay => true
  | _ => false

/-- Every entry belongs to the identifier it is filed under. -/
def IdsOk (h : Handler) : Prop := ∀ k f, h k = some f → ∀ i, f.info = some i → i.2.1 = k

theorem idsOk_settle (h : Handler) (hh : IdsOk h) (mid : Nat) (f : Fragment) (hf : ∀ i, f.info = some i → i.2.1 = mid) :
    IdsOk (h.settle mid f).1 := by
  intro k f' hk i hi
  simp only [Handler.settle] at hk
  split at hk
  · simp only [Handler.upd] at hk
    split at hk
    · simp at hk
    · exact hh k f' hk i hi
  · simp only [Handler.upd] at hk
    split at hk
    · rename_i e; simp only [Option.some.injEq] at hk; subst hk; rw [e]; exact hf i hi
    · exact hh k f' hk i hi

theorem idsOk_get (h : Handler) (hh : IdsOk h) (mid : Nat) (i) (hi : ((h mid).getD {}).info = some i) : i.2.1 = mid := by
  cases e : h mid with
  | none => rw [e] at hi; simp at hi
  | some f => rw [e] at hi; exact hh mid f e i hi

theorem idsOk_block (h : Handler) (hh : IdsOk h) (b : MBlock) : IdsOk (h.block b).1 := by
  cases b with
  | i2np m => exact hh
  | first ty mid exp p =>
    exact idsOk_settle h hh mid _ (by intro i hi; simp only [Option.some.injEq] at hi; rw [← hi])
  | followOn last mid num p =>
    simp only [Handler.block, Handler.followOn]
    refine idsOk_settle h hh mid _ ?_
    intro i hi; exact idsOk_get h hh mid i hi

/-- A block hands over nothing or a message with its own identifier. -/
theorem block_out_id (h : Handler) (hh : IdsOk h) (b : MBlock) (m : Message) (hm : (h.block b).2 = some m) : m.id = b.mid := by
  have key : ∀ mid (f : Fragment), (∀ i, f.info = some i → i.2.1 = mid) → (h.settle mid f).2 = some m → m.id = mid := by
    intro mid f hi hs
    simp only [Handler.settle] at hs
    split at hs
    · simp only [Fragment.construct, Option.map_eq_some_iff] at hs
      obtain ⟨i, e1, rfl⟩ := hs
      exact hi i e1
    · simp at hs
  cases b with
  | i2np m' => simp only [Handler.block, Option.some.injEq] at hm; subst hm; rfl
  | first ty mid exp p => exact key mid _ (by intro i hi; simp only [Option.some.injEq] at hi; rw [← hi]) hm
  | followOn last mid num p =>
    simp only [Handler.block, Handler.followOn] at hm
    refine key mid _ ?_ hm
    intro i hi; exact idsOk_get h hh mid i hi

/-- Nothing about `x` is known yet. -/
structure Clean (x : Nat) (s : Rx) : Prop where
  ids : IdsOk s.frags
  out : s.delivered x = []
  cur : x ∉ s.dup.current
  prev : x ∉ s.dup.previous

theorem message_other (expired : Message → Bool) (s : Rx) (m : Message) (x : Nat) (hm : m.id ≠ x) :
    (s.message expired m).frags = s.frags ∧ (s.message expired m).delivered x = s.delivered x ∧
    (x ∈ (s.message expired m).dup.current ↔ x ∈ s.dup.current) ∧
    (x ∈ (s.message expired m).dup.previous ↔ x ∈ s.dup.previous) := by
  simp only [Rx.message]
  split
  · simp
  · simp only [Dup.insert]
    have hne : x ≠ m.id := Ne.symm hm
    by_cases hc : (s.dup.current.contains m.id || s.dup.previous.contains m.id) = true
    · simp only [hc, if_true, Bool.false_eq_true, if_false, Rx.delivered, and_self]
    · simp only [hc, Bool.false_eq_true, if_false, if_true]
      refine ⟨trivial, ?_, ?_, trivial⟩
      · simp [Rx.delivered, hm]
      · simp [hne]

theorem clean_message_other {x : Nat} (expired : Message → Bool) {s : Rx} (h : Clean x s) (m : Message) (hm : m.id ≠ x) :
    Clean x (s.message expired m) := by
  obtain ⟨a, b, c, d⟩ := message_other expired s m x hm
  exact ⟨by rw [a]; exact h.ids, by rw [b]; exact h.out, fun hx => h.cur (c.mp hx), fun hx => h.prev (d.mp hx)⟩

theorem message_frags (expired : Message → Bool) (s : Rx) (m : Message) : (s.message expired m).frags = s.frags := by
  simp only [Rx.message]; split
  · rfl
  · split <;> rfl

theorem block_frags (expired : Message → Bool) (s : Rx) (b : MBlock) : (s.block expired b).frags = (s.frags.block b).1 := by
  simp only [Rx.block]
  split
  · rw [message_frags]
  · rfl

theorem clean_other {x : Nat} (expired : Message → Bool) {s : Rx} (h : Clean x s) (o : RxOp) (ho : o.Other x) :
    Clean x (s.step expired o) := by
  cases o with
  | decay => exact ⟨h.ids, h.out, by simp [Rx.step, Dup.decay], h.cur⟩
  | collect stale =>
    refine ⟨?_, h.out, h.cur, h.prev⟩
    intro k f hk i hi
    simp only [Rx.step, Handler.collect] at hk
    split at hk
    · simp at hk
    · exact h.ids k f hk i hi
  | block b =>
    have hs : Clean x { s with frags := (s.frags.block b).1 } := ⟨idsOk_block _ h.ids b, h.out, h.cur, h.prev⟩
    simp only [Rx.step, Rx.block]
    split
    · rename_i m hm
      refine clean_message_other expired hs m ?_
      rw [block_out_id _ h.ids b m hm]; exact ho
    · exact hs

/-- The message has been handed over and is remembered; `d` decays have happened. -/
structure Done (x : Nat) (m : Message) (d : Nat) (s : Rx) : Prop where
  out : s.delivered x = [m]
  known : x ∈ s.dup.current ∨ (x ∈ s.dup.previous ∧ 1 ≤ d)

theorem done_message {x : Nat} {m : Message} {d : Nat} (expired : Message → Bool) {s : Rx} (h : Done x m d s) (m' : Message) :
    Done x m d (s.message expired m') := by
  by_cases hm : m'.id = x
  · simp only [Rx.message]
    split
    · exact h
    · have hin : (s.dup.current.contains m'.id || s.dup.previous.contains m'.id) = true := by
        rw [hm]
        rcases h.known with hk | hk
        · simp [hk]
        · simp [hk.1]
      simp only [Dup.insert, hin, if_true]
      exact h
  · obtain ⟨_, b, c, e⟩ := message_other expired s m' x hm
    exact ⟨by rw [b]; exact h.out, by
      rcases h.known with hk | hk
      · exact Or.inl (c.mpr hk)
      · exact Or.inr ⟨e.mpr hk.1, hk.2⟩⟩

theorem done_step {x : Nat} {m : Message} {d : Nat} (expired : Message → Bool) {s : Rx} (h : Done x m d s) (o : RxOp)
    (hd : d + (if o.isDecay then 1 else 0) ≤ 1) : Done x m (d + (if o.isDecay then 1 else 0)) (s.step expired o) := by
  cases o with
  | decay =>
    simp only [RxOp.isDecay, if_true] at hd ⊢
    refine ⟨h.out, ?_⟩
    rcases h.known with hk | hk
    · exact Or.inr ⟨hk, by omega⟩
    · omega
  | collect stale => exact ⟨h.out, h.known⟩
  | block b =>
    simp only [RxOp.isDecay, Bool.false_eq_true, if_false, Nat.add_zero, Rx.step, Rx.block]
    split
    · exact done_message (s := { s with frags := (s.frags.block b).1 }) expired ⟨h.out, h.known⟩ _
    · exact ⟨h.out, h.known⟩

theorem done_run {x : Nat} {m : Message} (expired : Message → Bool) (ops : List RxOp) : ∀ (d : Nat) (s : Rx), Done x m d s →
    d + (ops.filter RxOp.isDecay).length ≤ 1 → (Rx.run expired s ops).delivered x = [m] := by
  induction ops with
  | nil => intro d s h _; exact h.out
  | cons o ops ih =>
    intro d s h hd
    have hl : d + (if o.isDecay then 1 else 0) + (ops.filter RxOp.isDecay).length ≤ 1 := by
      cases ho : o.isDecay <;> simp [List.filter_cons, ho] at hd ⊢ <;> omega
    exact ih _ _ (done_step expired h o (by omega)) hl

/-- A fresh message is handed over. -/
theorem message_fresh {x : Nat} (expired : Message → Bool) {s : Rx} (h : Clean x s) (m : Message) (hm : m.id = x)
    (he : expired m = false) : Done x m 0 (s.message expired m) := by
  have hc : (s.dup.current.contains m.id || s.dup.previous.contains m.id) = false := by
    rw [hm]; simp [h.cur, h.prev]
  have ho := h.out
  simp only [Rx.delivered] at ho
  simp only [Rx.message, he, Bool.false_eq_true, if_false, Dup.insert, hc, if_true]
  constructor
  · simp [Rx.delivered, List.filter_append, ho, hm]
  · left; simp [hm]

theorem clean_run {x : Nat} (expired : Message → Bool) (ops : List RxOp) : ∀ (s : Rx), Clean x s → (∀ o ∈ ops, o.Other x) →
    Clean x (Rx.run expired s ops) := by
  induction ops with
  | nil => intro s h _; exact h
  | cons o ops ih =>
    intro s h ho
    exact ih _ (clean_other expired h o (ho o (by simp))) (fun o' h' => ho o' (by simp [h']))

theorem clean_init (x : Nat) : Clean x {} :=
  ⟨by intro k f h; simp at h, rfl, by simp, by simp⟩

theorem rx_run_append (expired : Message → Bool) (s : Rx) (a b : List RxOp) :
    Rx.run expired s (a ++ b) = Rx.run expired (Rx.run expired s a) b := by simp [Rx.run]

/-- Foreign operations do not touch the entry of the message. -/
theorem frags_other (expired : Message → Bool) (s : Rx) (x : Nat) (o : RxOp) (ho : o.Other x) :
    (s.step expired o).frags x = s.frags x := by
  cases o with
  | decay => rfl
  | collect stale => simp only [Rx.step, Handler.collect]; rw [if_neg ho]
  | block b =>
    simp only [Rx.step, block_frags]
    cases b with
    | i2np m => rfl
    | first ty mid exp p => exact Cut.settle_other _ mid x _ (Ne.symm ho)
    | followOn last mid num p => exact Cut.settle_other _ mid x _ (Ne.symm ho)

theorem decays_tail (o : RxOp) (ops : List RxOp) :
    (ops.filter RxOp.isDecay).length ≤ ((o :: ops).filter RxOp.isDecay).length := by
  rw [List.filter_cons]; split <;> simp

/-- All the blocks of a cut message, from a session that has seen nothing of it. -/
theorem Cut.delivered (c : Cut) (expired : Message → Bool) (he : expired c.whole = false) (post : List RxOp) :
    ∀ (bs : List MBlock) (s : Rx), Clean c.mid s → c.Holds bs s.frags →
    (∃ i, i < c.ps.length ∧ c.frag i ∉ bs) →
    (∀ o ∈ post, (∃ i, i < c.ps.length ∧ o = .block (c.frag i)) ∨ o.Other c.mid) →
    (∀ i, i < c.ps.length → c.frag i ∈ bs ∨ RxOp.block (c.frag i) ∈ post) →
    (post.filter RxOp.isDecay).length ≤ 1 →
    (Rx.run expired s post).delivered c.mid = [c.whole] := by
  induction post with
  | nil =>
    intro bs s _ _ ⟨i, hi, hm⟩ _ hall _
    rcases hall i hi with h | h
    · exact absurd h hm
    · simp at h
  | cons o post ih =>
    intro bs s hc hh hmiss hops hall hd
    have hops' : ∀ o ∈ post, (∃ i, i < c.ps.length ∧ o = .block (c.frag i)) ∨ o.Other c.mid :=
      fun o h => hops o (by simp [h])
    have hd' : (post.filter RxOp.isDecay).length ≤ 1 := Nat.le_trans (decays_tail o post) hd
    show (Rx.run expired (s.step expired o) post).delivered c.mid = _
    by_cases hoth : o.Other c.mid
    · have hfr := frags_other expired s c.mid o hoth
      refine ih bs _ (clean_other expired hc o hoth) (by simp only [Holds, hfr]; exact hh) hmiss hops' ?_ hd'
      intro i hi
      rcases hall i hi with h | h
      · exact Or.inl h
      · rcases List.mem_cons.mp h with h | h
        · exfalso
          rw [← h] at hoth
          simp only [frag] at hoth
          split at hoth <;> exact hoth rfl
        · exact Or.inr h
    · obtain ⟨i, hi, rfl⟩ := (hops o (by simp)).resolve_right hoth
      obtain ⟨s1, s2⟩ := c.fragment_step s.frags bs hh i hi
      by_cases hfull : ∀ j, j < c.ps.length → c.frag j ∈ bs ++ [c.frag i]
      · have e := s1 hfull
        have hst : s.step expired (.block (c.frag i)) =
            Rx.message expired { s with frags := s.frags.upd c.mid none } c.whole := by
          simp only [Rx.step, Rx.block, e]
        rw [hst]
        refine done_run expired post 0 _ (message_fresh expired ?_ c.whole rfl he) (by omega)
        have hids := idsOk_block s.frags hc.ids (c.frag i)
        rw [e] at hids
        exact ⟨hids, hc.out, hc.cur, hc.prev⟩
      · have hmiss' : ∃ j, j < c.ps.length ∧ c.frag j ∉ bs ++ [c.frag i] := by
          refine Classical.byContradiction (fun hx => hfull (fun j hj => ?_))
          exact Classical.byContradiction (fun hy => hx ⟨j, hj, hy⟩)
        obtain ⟨o1, o2⟩ := s2 hmiss'
        have hst : s.step expired (.block (c.frag i)) = { s with frags := (s.frags.block (c.frag i)).1 } := by
          simp only [Rx.step, Rx.block, o1]
        rw [hst]
        refine ih (bs ++ [c.frag i]) _ ⟨idsOk_block s.frags hc.ids _, hc.out, hc.cur, hc.prev⟩ o2 hmiss' hops' ?_ hd'
        intro j hj
        rcases hall j hj with h | h
        · exact Or.inl (by simp [h])
        · rcases List.mem_cons.mp h with h | h
          · simp only [RxOp.block.injEq] at h; exact Or.inl (by simp [h])
          · exact Or.inr h

theorem followOns_mem (mid n : Nat) (ps : List Bytes) : ∀ i b, b ∈ followOns mid n i ps ↔
    ∃ j, j < ps.length ∧ b = .followOn (i + j + 2 == n) mid (i + j + 1) (ps[j]?.getD []) := by
  induction ps with
  | nil => intro i b; simp [followOns]
  | cons p ps ih =>
    intro i b
    simp only [followOns, List.mem_cons, ih]
    constructor
    · rintro (rfl | ⟨j, hj, rfl⟩)
      · exact ⟨0, by simp, by simp⟩
      · exact ⟨j + 1, by simp; omega, by
          simp only [List.getElem?_cons_succ]
          have e : i + 1 + j = i + (j + 1) := by omega
          rw [e]⟩
    · rintro ⟨j, hj, rfl⟩
      cases j with
      | zero => left; simp
      | succ j =>
        right
        refine ⟨j, by simpa using hj, ?_⟩
        simp only [List.getElem?_cons_succ]
        have e : i + 1 + j = i + (j + 1) := by omega
        rw [e]

/-- C72 (partial): a message handed to the sender is cut into blocks; whatever the order in which the blocks arrive, with whatever
repetitions, blocks of other messages, collections of other stale messages in between and whatever happened before, and with at most
one decay of the duplicate filter in that time, the receiver hands on exactly one message with this identifier: the message.
The message has whole seconds of expiration (it comes parsed from its short form), has not expired on arrival, and its
identifier is not used for another one. Missing: payloads of 1,190 to 1,200 bytes (`C72_message_lost_violated`). -/
theorem C72_delivered_exactly_once_partial (expired : Message → Bool) (m : Message)
    (hsec : fromSecs (asSecs m.expiration) = m.expiration)
    (hsize : m.payload.length < 1190 ∨ 1200 < m.payload.length) (he : expired m = false) (pre post : List RxOp)
    (hpre : ∀ o ∈ pre, o.Other m.id) (hpost : ∀ o ∈ post, (∃ b ∈ sendMessage m, o = .block b) ∨ o.Other m.id)
    (hall : ∀ b ∈ sendMessage m, RxOp.block b ∈ post) (hd : (post.filter RxOp.isDecay).length ≤ 1) :
    (Rx.run expired {} (pre ++ post)).delivered m.id = [m] := by
  rw [rx_run_append]
  have hclean := clean_run expired pre {} (clean_init m.id) hpre
  have hfree : (Rx.run expired {} pre).frags m.id = none := by
    have : ∀ (ops : List RxOp) (s : Rx), (∀ o ∈ ops, o.Other m.id) → (Rx.run expired s ops).frags m.id = s.frags m.id := by
      intro ops
      induction ops with
      | nil => intro s _; rfl
      | cons o ops ih =>
        intro s ho
        show (Rx.run expired (s.step expired o) ops).frags m.id = _
        rw [ih _ (fun o' h => ho o' (by simp [h])), frags_other expired s m.id o (ho o (by simp))]
    rw [this pre {} hpre]
  generalize Rx.run expired {} pre = s at hclean hfree
  by_cases hshort : m.serializedLenShort ≤ 1200
  · have hsend : sendMessage m = [.i2np m] := by simp [sendMessage, hshort]
    rw [hsend] at hpost hall
    have hmem := hall (.i2np m) (by simp)
    clear hall hsend
    induction post generalizing s with
    | nil => simp at hmem
    | cons o post ih =>
      show (Rx.run expired (s.step expired o) post).delivered m.id = _
      have hd' : (post.filter RxOp.isDecay).length ≤ 1 := Nat.le_trans (decays_tail o post) hd
      by_cases hoth : o.Other m.id
      · refine ih (fun o' h => hpost o' (by simp [h])) hd' _ (clean_other expired hclean o hoth)
          (by rw [frags_other expired s m.id o hoth]; exact hfree) ?_
        rcases List.mem_cons.mp hmem with h | h
        · rw [← h] at hoth; exact absurd rfl hoth
        · exact h
      · obtain ⟨b, hb, rfl⟩ := (hpost o (by simp)).resolve_right hoth
        simp only [List.mem_singleton] at hb
        subst hb
        exact done_run expired post 0 _ (message_fresh expired hclean m rfl he) (by omega)
  · have hlong : 1200 < m.payload.length := by
      simp only [Message.serializedLenShort] at hshort; omega
    have hcl := chunksOf_length 1200 m.payload.length (by decide) m.payload (Nat.le_refl _)
    have hcf := chunksOf_flatten 1200 m.payload.length (by decide) m.payload (Nat.le_refl _)
    cases hcs : chunksOf 1200 m.payload.length m.payload with
    | nil => rw [hcs] at hcf; rw [← hcf] at hlong; simp at hlong
    | cons p ps =>
      rw [hcs] at hcl hcf
      have htwo : 2 ≤ (p :: ps).length := by rw [hcl]; omega
      have hsend : sendMessage m = .first m.type m.id (asSecs m.expiration) p :: followOns m.id (ps.length + 1) 0 ps := by
        simp only [sendMessage, hshort, if_false, hcs]
      let c : Cut := ⟨m.type, m.id, asSecs m.expiration, p :: ps, htwo⟩
      have hwhole : c.whole = m := by
        simp only [Cut.whole, c, hcf, hsec]
      have hmem : ∀ b, b ∈ sendMessage m ↔ ∃ i, i < c.ps.length ∧ b = c.frag i := by
        intro b
        rw [hsend, List.mem_cons, followOns_mem]
        constructor
        · rintro (rfl | ⟨j, hj, rfl⟩)
          · exact ⟨0, by simp [c], rfl⟩
          · refine ⟨j + 1, by simp [c]; omega, ?_⟩
            simp [Cut.frag, c]
        · rintro ⟨i, hi, rfl⟩
          cases i with
          | zero => left; rfl
          | succ i =>
            right
            refine ⟨i, by simpa [c] using hi, ?_⟩
            simp [Cut.frag, c]
      have := c.delivered expired (by rw [hwhole]; exact he) post [] s hclean (by
          simp only [Cut.Holds, c, hfree, Option.getD_none]
          exact (Cut.entry_empty c).congr (by simp)) ⟨0, by simp [c], by simp⟩
        (by
          intro o ho
          rcases hpost o ho with ⟨b, hb, rfl⟩ | h
          · obtain ⟨i, hi, rfl⟩ := (hmem b).mp hb
            exact Or.inl ⟨i, hi, rfl⟩
          · exact Or.inr h)
        (fun i hi => Or.inr (hall _ ((hmem _).mpr ⟨i, hi, rfl⟩))) hd
      rw [hwhole] at this
      exact this

/-- A message of three fragments, arriving last first and twice. -/
def bigSample : Message := { type := .data, id := 5, expiration := fromSecs 9, payload := List.replicate 3000 7 }

theorem bigSample_facts : fromSecs (asSecs bigSample.expiration) = bigSample.expiration ∧ 1200 < bigSample.payload.length := by
  refine ⟨by simp only [bigSample]; decide, ?_⟩
  simp only [bigSample, List.length_replicate]; omega

example (other : Message) (ho : other.id ≠ bigSample.id) : (Rx.run (fun _ => false) {} ([.block (.i2np other), .decay] ++
    (((sendMessage bigSample).reverse ++ sendMessage bigSample).map RxOp.block ++ [.decay]))).delivered bigSample.id = [bigSample] := by
  obtain ⟨f1, f2⟩ := bigSample_facts
  generalize bigSample = m at *
  refine C72_delivered_exactly_once_partial (fun _ => false) m f1 (Or.inr f2) rfl [.block (.i2np other), .decay]
    (((sendMessage m).reverse ++ sendMessage m).map RxOp.block ++ [.decay]) ?_ ?_ ?_ ?_
  · intro o h
    simp only [List.mem_cons, List.not_mem_nil, or_false] at h
    rcases h with rfl | rfl
    · exact ho
    · trivial
  · intro o h
    simp only [List.mem_append, List.mem_map, List.mem_reverse, or_self, List.mem_singleton] at h
    rcases h with ⟨b, hb, rfl⟩ | rfl
    · exact Or.inl ⟨b, hb, rfl⟩
    · exact Or.inr trivial
  · intro b hb; simp only [List.mem_append, List.mem_map, List.mem_reverse, or_self]; exact Or.inl ⟨b, hb, rfl⟩
  · rw [List.filter_append, List.filter_map]
    have : ∀ l : List MBlock, l.filter (RxOp.isDecay ∘ RxOp.block) = [] := by
      intro l; induction l <;> simp_all [RxOp.isDecay]
    rw [this]; decide

/-- C72 violated: a message whose payload has 1,190 to 1,200 bytes is sent as a single first fragment that is not marked as the last one;
whatever arrives, in whatever order and however often, the receiver never hands the message on. -/
theorem C72_message_lost_violated (expired : Message → Bool) (m : Message) (h1 : 1190 ≤ m.payload.length)
    (h2 : m.payload.length ≤ 1200) (ops : List RxOp)
    (hops : ∀ o ∈ ops, (∃ b ∈ sendMessage m, o = .block b) ∨ o.Other m.id) :
    (Rx.run expired {} ops).delivered m.id = [] := by
  have hsend : sendMessage m = [.first m.type m.id (asSecs m.expiration) m.payload] := by
    have hl : ¬ m.serializedLenShort ≤ 1200 := by simp only [Message.serializedLenShort]; omega
    have hcl := chunksOf_length 1200 m.payload.length (by decide) m.payload (Nat.le_refl _)
    have hcf := chunksOf_flatten 1200 m.payload.length (by decide) m.payload (Nat.le_refl _)
    have hone : (m.payload.length + 1200 - 1) / 1200 = 1 := by omega
    rw [hone] at hcl
    obtain ⟨p, hp⟩ := List.length_eq_one_iff.mp hcl
    rw [hp] at hcf
    simp only [sendMessage, hl, if_false, hp]
    simp only [List.flatten_cons, List.flatten_nil, List.append_nil] at hcf
    rw [hcf]; rfl
  rw [hsend] at hops
  have key : ∀ (ops : List RxOp) (s : Rx), Clean m.id s → ((s.frags m.id).getD {}).num = none →
      (∀ o ∈ ops, (∃ b ∈ [MBlock.first m.type m.id (asSecs m.expiration) m.payload], o = .block b) ∨ o.Other m.id) →
      (Rx.run expired s ops).delivered m.id = [] := by
    intro ops
    induction ops with
    | nil => intro s h _ _; exact h.out
    | cons o ops ih =>
      intro s hc hn ho
      show (Rx.run expired (s.step expired o) ops).delivered m.id = _
      rcases ho o (by simp) with ⟨b, hb, rfl⟩ | hoth
      · simp only [List.mem_singleton] at hb
        subst hb
        have hnr : ∀ f : Fragment, f.num = none → f.isReady = false := by intro f hf; simp [Fragment.isReady, hf]
        have hb : s.frags.block (.first m.type m.id (asSecs m.expiration) m.payload) =
            (s.frags.upd m.id (some { ((s.frags m.id).getD {}) with
              frags := ((s.frags m.id).getD {}).frags.ins 0 m.payload, info := some (m.type, m.id, asSecs m.expiration) }), none) := by
          simp only [Handler.block, Handler.first, Handler.settle]
          rw [hnr { ((s.frags m.id).getD {}) with
            frags := ((s.frags m.id).getD {}).frags.ins 0 m.payload, info := some (m.type, m.id, asSecs m.expiration) } hn]
          rfl
        have hids := idsOk_block s.frags hc.ids (.first m.type m.id (asSecs m.expiration) m.payload)
        have hst : s.step expired (.block (.first m.type m.id (asSecs m.expiration) m.payload)) =
            { s with frags := (s.frags.block (.first m.type m.id (asSecs m.expiration) m.payload)).1 } := by
          simp only [Rx.step, Rx.block, hb]
        rw [hst]
        refine ih _ ⟨hids, hc.out, hc.cur, hc.prev⟩ ?_ (fun o' h => ho o' (by simp [h]))
        rw [hb]
        simp only [Handler.upd, if_true, Option.getD_some]
        exact hn
      · refine ih _ (clean_other expired hc o hoth) ?_ (fun o' h => ho o' (by simp [h]))
        rw [frags_other expired s m.id o hoth]; exact hn
  exact key ops {} (clean_init m.id) rfl hops

end Emissary.Ssu2
