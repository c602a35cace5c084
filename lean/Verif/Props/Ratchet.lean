import Verif.Model.Ratchet
import Verif.Props.TunnelDemo
/-!
# Properties of tag sets
-/
namespace Emissary.Ratchet
open Emissary Emissary.I2np
open Emissary.Ssu2 (Prims)
open Emissary.Ntcp2 (unle le)
open Emissary.Garlic (NextKey)

/-! ## C55: indices and keys never repeat -/

/-- What can be done with a tag set. -/
inductive Op where
  | next
  | generate (sk : Bytes)
  | handle (sk : Bytes) (kind : NextKey)

/-- The tag set after an operation and the entry it handed out, if any. -/
def TagSet.op (P : Prims) (chk : Bool) (t : TagSet) : Op → Option Entry × TagSet
  | .next => t.next P
  | .generate sk => (none, (t.tryGenerate P chk sk).2)
  | .handle sk kind => (none, (t.handle P chk sk kind).2)

/-- The tag set after some operations and the entries handed out. -/
def TagSet.ops (P : Prims) (chk : Bool) : TagSet → List Op → List Entry × TagSet
  | t, [] => ([], t)
  | t, o :: os =>
    let r := t.op P chk o
    let rest := TagSet.ops P chk r.2 os
    (r.1.toList ++ rest.1, rest.2)

/-- The key ids and the id of the tag set fit together. -/
def Fit (t : TagSet) : Prop :=
  match t.state with
  | .uninit => t.id = 0
  | .awaiting s r _ => t.id < 1 + s + r ∧ s ≤ maxKeyId ∧ r ≤ maxKeyId
  | .confirming s r _ _ => t.id < 1 + s + r ∧ s ≤ maxKeyId ∧ r ≤ maxKeyId
  | .active s r _ _ => t.id = 1 + s + r ∧ s ≤ maxKeyId ∧ r ≤ maxKeyId
  | .poisoned => t.id ≤ 65535

/-- One step: the id does not decrease, and starts from index zero if it increases. -/
structure Moves (t t' : TagSet) : Prop where
  fit : Fit t'
  id : t.id ≤ t'.id
  index : t'.id = t.id → t.index ≤ t'.index

theorem fit_id {t : TagSet} (h : Fit t) : t.id ≤ 65535 := by
  unfold Fit maxKeyId at h
  split at h <;> omega

theorem moves_reinit (P : Prims) (t : TagSet) (sk pk : Bytes) (s r : Nat) (hs : s ≤ maxKeyId) (hr : r ≤ maxKeyId) (hid : t.id < 1 + s + r) :
    Moves t (t.reinit P sk pk s r) :=
  ⟨⟨rfl, hs, hr⟩, Nat.le_of_lt hid, fun h => by simp only [TagSet.reinit] at h; omega⟩

theorem moves_poison {t : TagSet} (h : Fit t) : Moves t { t with state := .poisoned } :=
  ⟨show t.id ≤ 65535 from fit_id h, Nat.le_refl _, fun _ => Nat.le_refl _⟩

theorem moves_refl {t : TagSet} (h : Fit t) : Moves t t := ⟨h, Nat.le_refl _, fun _ => Nat.le_refl _⟩

theorem moves_generate (P : Prims) (chk : Bool) (sk : Bytes) {t : TagSet} (h : Fit t) : Moves t (t.tryGenerate P chk sk).2 := by
  unfold TagSet.tryGenerate
  split
  · exact moves_refl h
  · split
    · rename_i hst
      refine ⟨?_, Nat.le_refl _, fun _ => Nat.le_refl _⟩
      simp only [Fit, hst] at h ⊢
      simp [h, maxKeyId]
    · rename_i s r _ _ hst
      have h' := h
      simp only [Fit, hst] at h'
      split
      · split
        · exact moves_poison h
        · rename_i hm
          refine ⟨?_, Nat.le_refl _, fun _ => Nat.le_refl _⟩
          simp only [Fit]
          unfold maxKeyId at *
          omega
      · split
        · exact moves_poison h
        · rename_i hm
          refine ⟨?_, Nat.le_refl _, fun _ => Nat.le_refl _⟩
          simp only [Fit]
          unfold maxKeyId at *
          omega
    · exact moves_refl h
    · exact moves_refl h
    · exact moves_refl h

theorem moves_handle (P : Prims) (chk : Bool) (sk : Bytes) (kind : NextKey) {t : TagSet} (h : Fit t) :
    Moves t (t.handle P chk sk kind).2 := by
  unfold TagSet.handle
  split
  · rename_i hst
    simp only [Fit, hst] at h
    exact moves_reinit P t _ _ 0 0 (by decide) (by decide) (by omega)
  · rename_i hst
    simp only [Fit, hst] at h
    exact moves_reinit P t _ _ _ _ h.2.1 h.2.2 h.1
  · rename_i hst
    simp only [Fit, hst] at h
    exact moves_reinit P t _ _ _ _ h.2.1 h.2.2 h.1
  · rename_i s r own pk id key rev hst
    have h' := h
    simp only [Fit, hst] at h'
    split
    · simp only [decide_eq_true_eq] at *
      split
      · exact moves_poison h
      · exact moves_reinit P t _ _ _ _ (by omega) h'.2.2 (by omega)
    · simp only [decide_eq_true_eq] at *
      split
      · exact moves_poison h
      · exact moves_reinit P t _ _ _ _ h'.2.1 (by omega) (by omega)
    · exact moves_refl h
    · exact moves_refl h
  · exact moves_refl h
  · exact moves_poison h

/-- The place of an entry comes before another place. -/
def Before (a b : Nat × Nat) : Prop := a.1 < b.1 ∨ (a.1 = b.1 ∧ a.2 < b.2)

theorem op_spec (P : Prims) (chk : Bool) {t : TagSet} (h : Fit t) (o : Op) : Moves t (t.op P chk o).2 ∧
    ∀ e, (t.op P chk o).1 = some e → e.setId = t.id ∧ e.index = t.index ∧ (t.op P chk o).2.id = t.id ∧ (t.op P chk o).2.index = t.index + 1 := by
  cases o with
  | next =>
    simp only [TagSet.op, TagSet.next]
    split
    · exact ⟨⟨h, Nat.le_refl _, fun _ => Nat.le_succ _⟩, by rintro e he; injection he with he; subst he; exact ⟨rfl, rfl, rfl, rfl⟩⟩
    · exact ⟨moves_refl h, by simp⟩
  | generate sk => exact ⟨moves_generate P chk sk h, by simp [TagSet.op]⟩
  | handle sk kind => exact ⟨moves_handle P chk sk kind h, by simp [TagSet.op]⟩

theorem ops_spec (P : Prims) (chk : Bool) (os : List Op) {t : TagSet} (h : Fit t) : Fit (t.ops P chk os).2 ∧
    (t.ops P chk os).1.Pairwise (fun a b => Before (a.setId, a.index) (b.setId, b.index)) ∧
    ∀ e ∈ (t.ops P chk os).1, t.id < e.setId ∨ (t.id = e.setId ∧ t.index ≤ e.index) := by
  induction os generalizing t with
  | nil => exact ⟨h, by simp [TagSet.ops], by simp [TagSet.ops]⟩
  | cons o os ih =>
    obtain ⟨hm, he⟩ := op_spec P chk h o
    obtain ⟨h1, h2, h3⟩ := ih hm.fit
    have h3' : ∀ e ∈ ((t.op P chk o).2.ops P chk os).1, t.id < e.setId ∨ (t.id = e.setId ∧ t.index ≤ e.index) := by
      intro e hmem
      have := h3 e hmem
      have a := hm.id
      have b := hm.index
      omega
    simp only [TagSet.ops]
    refine ⟨h1, ?_, ?_⟩
    · cases hq : (t.op P chk o).1 with
      | none => simpa using h2
      | some q =>
        obtain ⟨q1, q2, q3, q4⟩ := he q hq
        simp only [Option.toList_some, List.singleton_append, List.pairwise_cons]
        refine ⟨fun e hmem => ?_, h2⟩
        have := h3 e hmem
        simp only [Before]
        omega
    · intro e hmem
      rw [List.mem_append] at hmem
      rcases hmem with hmem | hmem
      · rw [Option.mem_toList] at hmem
        obtain ⟨q1, q2, _⟩ := he e hmem
        omega
      · exact h3' e hmem

/-- C55: in every history of a tag set, also over any number of DH ratchets, the entries handed out have strictly increasing
(tag set id, index), so that none is handed out twice. -/
theorem C55_increasing (P : Prims) (chk : Bool) (root key : Bytes) (os : List Op) :
    ((TagSet.new P root key).ops P chk os).1.Pairwise (fun a b => Before (a.setId, a.index) (b.setId, b.index)) :=
  (ops_spec P chk os (t := TagSet.new P root key) rfl).2.1

/-- The chain after `n` steps. -/
def Chain.iter (P : Prims) : Nat → Chain → Chain
  | 0, c => c
  | n + 1, c => (Chain.iter P n c).step P |>.2

/-- The entry a chain has at a place: the `i`-th step of both ratchets. -/
def Chain.entry (P : Prims) (c : Chain) (id i : Nat) : Entry :=
  { key := ((c.iter P i).step P).1.1, tag := ((c.iter P i).step P).1.2, index := i, setId := id }

def nexts (P : Prims) : Nat → TagSet → List (Option Entry)
  | 0, _ => []
  | n + 1, t => (t.next P).1 :: nexts P n (t.next P).2

theorem nexts_spec (P : Prims) (c : Chain) (n : Nat) (t : TagSet) (h : t.chain = c.iter P t.index) :
    nexts P n t = (List.range' t.index n).map fun i => if i < 65535 then some (c.entry P t.id i) else none := by
  induction n generalizing t with
  | zero => rfl
  | succ n ih =>
    rw [nexts, List.range'_succ, List.map_cons]
    by_cases hi : t.index + 1 < 2 ^ 16
    · have e : (t.next P).2 = { t with index := t.index + 1, chain := (t.chain.step P).2 } := by simp only [TagSet.next, if_pos hi]
      have e1 : (t.next P).1 = some (c.entry P t.id t.index) := by simp only [TagSet.next, if_pos hi, Chain.entry, h]
      rw [ih (t.next P).2 (by rw [e]; simp only [Chain.iter, h]), e, e1]
      simp only
      rw [if_pos (by omega)]
    · have e : t.next P = (none, t) := by simp only [TagSet.next, if_neg hi]
      have hall : ∀ m s, 65535 ≤ s → (List.range' s m).map (fun i => if i < 65535 then some (c.entry P t.id i) else none) =
          List.replicate m none := by
        intro m
        induction m with
        | zero => intros; rfl
        | succ m ihm =>
          intro s hs
          rw [List.range'_succ, List.map_cons, if_neg (by omega), ihm (s + 1) (by omega), List.replicate_succ]
      rw [e]
      simp only
      rw [ih t h, hall n _ (by omega), hall n _ (by omega), if_neg (by omega)]

/-- C55: a new tag set hands out exactly 65535 entries, with indices 0 to 65534 and the keys and tags of the steps of its ratchets, and
then nothing: it does not wrap around. -/
theorem C55_stops (P : Prims) (root key : Bytes) (n : Nat) : nexts P n (TagSet.new P root key) =
    (List.range n).map fun i => if i < 65535 then some ((Chain.new P root key).entry P 0 i) else none := by
  rw [List.range_eq_range']
  exact nexts_spec P (Chain.new P root key) n (TagSet.new P root key) rfl

/-- The same after a DH ratchet. -/
theorem C55_stops_ratchet (P : Prims) (t : TagSet) (sk pk : Bytes) (s r n : Nat) : nexts P n (t.reinit P sk pk s r) =
    (List.range n).map fun i => if i < 65535 then some ((t.reinit P sk pk s r).chain.entry P (1 + s + r) i) else none := by
  rw [List.range_eq_range']
  exact nexts_spec P (t.reinit P sk pk s r).chain n (t.reinit P sk pk s r) rfl

/-! ### Keys -/

/-- An ideal keyed hash: nothing collides, and outputs are longer than inputs, so that no output is among its own inputs. -/
structure Free (P : Prims) : Prop where
  inj : ∀ k d k' d', P.hmac k d = P.hmac k' d' → k = k' ∧ d = d'
  grows : ∀ k d, k.length < (P.hmac k d).length

/-- The symmetric key of a set after `n` entries. -/
theorem sym_succ (P : Prims) (c : Chain) (n : Nat) :
    (c.iter P (n + 1)).symKey = P.hmac (P.hmac (c.iter P n).symKey []) (lblSymmetric ++ [1]) := rfl

theorem sym_inj {P : Prims} (h : Free P) {r k r' k' : Bytes} : ∀ i j,
    ((Chain.new P r k).iter P i).symKey = ((Chain.new P r' k').iter P j).symKey → i = j ∧ r = r' ∧ k = k'
  | 0, 0, e => by
    simp only [Chain.iter, Chain.new] at e
    obtain ⟨e, _⟩ := h.inj _ _ _ _ e
    obtain ⟨e, _⟩ := h.inj _ _ _ _ e
    obtain ⟨e, _⟩ := h.inj _ _ _ _ e
    obtain ⟨e1, e2⟩ := h.inj _ _ _ _ e
    exact ⟨rfl, e1, e2⟩
  | i + 1, 0, e => by
    rw [sym_succ] at e
    obtain ⟨_, e⟩ := h.inj _ _ _ _ e
    have := congrArg List.getLast? e
    simp at this
  | 0, j + 1, e => by
    rw [sym_succ] at e
    obtain ⟨_, e⟩ := h.inj _ _ _ _ e
    have := congrArg List.getLast? e
    simp at this
  | i + 1, j + 1, e => by
    rw [sym_succ, sym_succ] at e
    obtain ⟨e, _⟩ := h.inj _ _ _ _ e
    obtain ⟨e, _⟩ := h.inj _ _ _ _ e
    obtain ⟨h1, h2⟩ := sym_inj h i j e
    exact ⟨by omega, h2⟩

theorem key_inj {P : Prims} (h : Free P) {r k r' k' : Bytes} {i j id id' : Nat}
    (e : ((Chain.new P r k).entry P id i).key = ((Chain.new P r' k').entry P id' j).key) : i = j ∧ r = r' ∧ k = k' := by
  simp only [Chain.entry, Chain.step] at e
  obtain ⟨e, _⟩ := h.inj _ _ _ _ e
  obtain ⟨e, _⟩ := h.inj _ _ _ _ e
  exact sym_inj h i j e

theorem root_grows {P : Prims} (h : Free P) (r k : Bytes) : r.length < (Chain.new P r k).nextRoot.length :=
  Nat.lt_trans (h.grows r k) (h.grows _ _)

/-- A set that was made from these secrets. -/
def From (P : Prims) (t : TagSet) (r k : Bytes) : Prop := t.chain = (Chain.new P r k).iter P t.index

theorem iter_nextRoot (P : Prims) (n : Nat) (c : Chain) : (c.iter P n).nextRoot = c.nextRoot := by
  induction n with
  | zero => rfl
  | succ n ih => exact ih

/-- After an operation the set is the same, or a new one with a longer root. -/
theorem from_op {P : Prims} (h : Free P) (chk : Bool) {t : TagSet} {r k : Bytes} (hf : From P t r k) (o : Op) : ∃ r' k',
    From P (t.op P chk o).2 r' k' ∧ (r.length < r'.length ∨ (r = r' ∧ k = k' ∧ t.index + (t.op P chk o).1.toList.length ≤ (t.op P chk o).2.index)) ∧
    ∀ e ∈ (t.op P chk o).1.toList, e.key = ((Chain.new P r k).entry P t.id t.index).key ∧ r = r' := by
  have hroot : r.length < t.chain.nextRoot.length := by rw [hf, iter_nextRoot]; exact root_grows h r k
  have hre : ∀ sk pk s v, ∃ r' k', From P (t.reinit P sk pk s v) r' k' ∧ r.length < r'.length := fun sk pk s v => ⟨_, _, rfl, hroot⟩
  cases o with
  | next =>
    refine ⟨r, k, ?_⟩
    simp only [TagSet.op, TagSet.next]
    split
    · refine ⟨by simp only [From, Chain.iter]; rw [← hf], Or.inr ⟨trivial, trivial, Nat.le_refl _⟩, ?_⟩
      intro e he
      simp only [Option.toList_some, List.mem_singleton] at he
      subst he
      simp only [Chain.entry, and_true]
      rw [← hf]
    · exact ⟨hf, Or.inr ⟨trivial, trivial, Nat.le_refl _⟩, by simp⟩
  | generate sk =>
    have : From P (t.tryGenerate P chk sk).2 r k ∧ t.index ≤ (t.tryGenerate P chk sk).2.index := by
      unfold TagSet.tryGenerate
      (repeat' split) <;> exact ⟨hf, Nat.le_refl _⟩
    exact ⟨r, k, this.1, Or.inr ⟨rfl, rfl, this.2⟩, by simp [TagSet.op]⟩
  | handle sk kind =>
    have : (From P (t.handle P chk sk kind).2 r k ∧ t.index ≤ (t.handle P chk sk kind).2.index) ∨
        ∃ r' k', From P (t.handle P chk sk kind).2 r' k' ∧ r.length < r'.length := by
      unfold TagSet.handle
      (repeat' split) <;> first | exact Or.inr (hre _ _ _ _) | exact Or.inl ⟨hf, Nat.le_refl _⟩
    rcases this with h | ⟨r', k', h1, h2⟩
    · exact ⟨r, k, h.1, Or.inr ⟨rfl, rfl, h.2⟩, by simp [TagSet.op]⟩
    · exact ⟨r', k', h1, Or.inl h2, by simp [TagSet.op]⟩

theorem keys_spec {P : Prims} (h : Free P) (chk : Bool) (os : List Op) {t : TagSet} {r k : Bytes} (hf : From P t r k) :
    (t.ops P chk os).1.Pairwise (fun a b => a.key ≠ b.key) ∧
    ∀ e ∈ (t.ops P chk os).1, ∃ r' k' i, e.key = ((Chain.new P r' k').entry P 0 i).key ∧
      (r.length < r'.length ∨ (r = r' ∧ k = k' ∧ t.index ≤ i)) := by
  induction os generalizing t r k with
  | nil => exact ⟨by simp [TagSet.ops], by simp [TagSet.ops]⟩
  | cons o os ih =>
    obtain ⟨r1, k1, h1, h2, h3⟩ := from_op h chk hf o
    obtain ⟨g1, g2⟩ := ih h1
    simp only [TagSet.ops]
    refine ⟨?_, ?_⟩
    · cases hq : (t.op P chk o).1 with
      | none => simpa using g1
      | some q =>
        simp only [Option.toList_some, List.singleton_append, List.pairwise_cons]
        refine ⟨fun e hmem heq => ?_, g1⟩
        obtain ⟨q1, q2⟩ := h3 q (by simp [hq])
        obtain ⟨r', k', i, e1, e2⟩ := g2 e hmem
        rw [q1, e1] at heq
        have := key_inj h heq
        obtain ⟨j1, j2, j3⟩ := this
        rcases h2 with h2 | ⟨_, _, h2⟩
        · rw [q2] at h2; omega
        · rw [hq] at h2
          simp only [Option.toList_some, List.length_singleton] at h2
          rcases e2 with e2 | ⟨_, _, e2⟩
          · rw [← q2, j2] at e2; omega
          · omega
    · intro e hmem
      rw [List.mem_append] at hmem
      rcases hmem with hmem | hmem
      · exact ⟨r, k, t.index, (h3 e hmem).1, Or.inr ⟨rfl, rfl, Nat.le_refl _⟩⟩
      · obtain ⟨r', k', i, e1, e2⟩ := g2 e hmem
        refine ⟨r', k', i, e1, ?_⟩
        rcases h2 with h2 | ⟨e3, e4, h2⟩
        · rcases e2 with e2 | ⟨e2, _⟩
          · exact Or.inl (Nat.lt_trans h2 e2)
          · exact Or.inl (e2 ▸ h2)
        · subst e3 e4
          rcases e2 with e2 | ⟨e2, e3, e4⟩
          · exact Or.inl e2
          · exact Or.inr ⟨e2, e3, by omega⟩

/-- C55: with an ideal hash no two messages of a session have the same key, over any number of DH ratchets. -/
theorem C55_keys {P : Prims} (h : Free P) (chk : Bool) (root key : Bytes) (os : List Op) :
    ((TagSet.new P root key).ops P chk os).1.Pairwise (fun a b => a.key ≠ b.key) :=
  (keys_spec h chk os (t := TagSet.new P root key) (r := root) (k := key) rfl).1

/-- Such a hash exists. -/
def freeHmac : Bytes → Bytes → Bytes
  | [], d => 0 :: d
  | b :: k, d => 1 :: b :: freeHmac k d

theorem freeHmac_inj : ∀ k d k' d', freeHmac k d = freeHmac k' d' → k = k' ∧ d = d'
  | [], d, [], d', h => by simp [freeHmac] at h; exact ⟨rfl, h⟩
  | [], d, _ :: _, d', h => by simp [freeHmac] at h
  | _ :: _, d, [], d', h => by simp [freeHmac] at h
  | a :: k, d, b :: k', d', h => by
    simp only [freeHmac, List.cons.injEq, true_and] at h
    obtain ⟨rfl, h⟩ := h
    obtain ⟨rfl, rfl⟩ := freeHmac_inj k d k' d' h
    exact ⟨rfl, rfl⟩

theorem freeHmac_grows : ∀ k d, k.length < (freeHmac k d).length
  | [], d => by simp [freeHmac]
  | a :: k, d => by
    have := freeHmac_grows k d
    simp only [freeHmac, List.length_cons]
    omega

example : Free { TBuild.toyQ with hmac := freeHmac } := ⟨freeHmac_inj, freeHmac_grows⟩

/-- C56: ids never wrap: in every history the id of the tag set is at most 65535 and the key ids are at most 32767. -/
theorem C56_no_wrap (P : Prims) (chk : Bool) (root key : Bytes) (os : List Op) :
    let t := ((TagSet.new P root key).ops P chk os).2
    t.id ≤ 65535 ∧ (∀ s r sk pk, t.state = .active s r sk pk → t.id = 1 + s + r ∧ s ≤ 32767 ∧ r ≤ 32767) := by
  have h := (ops_spec P chk os (t := TagSet.new P root key) rfl).1
  refine ⟨fit_id h, fun s r sk pk hs => ?_⟩
  unfold Fit at h
  rw [hs] at h
  exact h

/-! ## C56: both ends ratchet in step -/

/-- The set the sender encrypts with, the set the receiver decrypts with, the requests the sender made, the answers of the receiver with
the request each is for, and the entries both have used. -/
structure Pair where
  S : TagSet
  R : TagSet
  sent : List NextKey := []
  answers : List (NextKey × NextKey) := []
  outS : List Entry := []
  outR : List Entry := []

/-- A new session: both ends made the set from the same secrets. -/
def Pair.new (P : Prims) (root key : Bytes) : Pair := { S := TagSet.new P root key, R := TagSet.new P root key }

inductive Ev where
  | takeS
  | takeR
  | request (sk : Bytes)
  | deliver (i : Nat) (sk : Bytes)
  | answer (j : Nat) (sk : Bytes)

/-- Requests and answers can be lost, duplicated, delayed and reordered: any can be delivered at any time. -/
def Pair.step (P : Prims) (chk : Bool) (p : Pair) : Ev → Out Pair
  | .takeS => .ok { p with S := (p.S.next P).2, outS := p.outS ++ (p.S.next P).1.toList }
  | .takeR => .ok { p with R := (p.R.next P).2, outR := p.outR ++ (p.R.next P).1.toList }
  | .request sk => match p.S.tryGenerate P chk sk with
    | (.ok k, S) => .ok { p with S, sent := p.sent ++ k.toList }
    | (.error e, _) => .error e
    | (.panic, _) => .panic
  | .deliver i sk => match p.sent[i]? with
    | none => .ok p
    | some f => match p.R.handle P chk sk f with
      | (.ok v, R) => .ok { p with R, answers := p.answers ++ v.toList.map fun v => (f, v) }
      | (.error e, _) => .error e
      | (.panic, _) => .panic
  | .answer j sk => match p.answers[j]? with
    | none => .ok p
    | some a => match p.S.handle P chk sk a.2 with
      | (.ok _, S) => .ok { p with S }
      | (.error e, _) => .error e
      | (.panic, _) => .panic

/-- The sender has made a request that is not answered. -/
def Waiting (t : TagSet) : Prop := match t.state with
  | .awaiting .. | .confirming .. => True
  | _ => False

/-- What the proof needs of the schedule: while the sender waits it is not given an answer to another request than the last one.
Requests are not restricted, nor are answers while the sender does not wait. -/
def Prompt (p : Pair) : Ev → Prop
  | .answer j _ => Waiting p.S → ∀ a, p.answers[j]? = some a → p.sent.getLast? = some a.1
  | _ => True

/-- The pair after some events, if nothing failed and every event was prompt. -/
inductive Reaches (P : Prims) (chk : Bool) : Pair → Pair → Prop where
  | refl (p : Pair) : Reaches P chk p p
  | step {p q r : Pair} (ev : Ev) : Reaches P chk p q → Prompt q ev → q.step P chk ev = .ok r → Reaches P chk p r

/-- The secret of a DH ratchet. -/
def tsk (P : Prims) (sk pk : Bytes) : Bytes := P.hmac (P.hmac (P.dh sk pk) []) (lblTagSet ++ [1])

/-- The receiver has already done what is asked. -/
def Old (r : TagSet) (f : NextKey) : Prop := ∃ s v sk pk, r.state = .active s v sk pk ∧ match f with
  | .forward k (some _) false => k ≤ s
  | .forward k none true => k ≤ v
  | .forward k (some _) true => k = 0
  | _ => False

/-- The request that waits for a key. -/
def askKey (P : Prims) (a : Nat) (sk : Bytes) : NextKey := if a = 0 then .forward 0 (some (P.pub sk)) true else .forward a none true

inductive Phase (P : Prims) (base : Nat → Chain) : KeyState → Nat → KeyState → Nat → Option NextKey → List (NextKey × NextKey) → Prop where
  | start {last ans} : Phase P base .uninit 0 .uninit 0 last ans
  | first {ans} (sk : Bytes) : Phase P base (.awaiting 0 0 sk) 0 .uninit 0 (some (askKey P 0 sk)) ans
  | await {ans} (a : Nat) (sk skr : Bytes) (h : a + 1 ≤ maxKeyId) : Phase P base (.awaiting (a + 1) (a + 1) sk) (1 + (a + 1) + a)
      (.active (a + 1) a skr (P.pub sk)) (1 + (a + 1) + a) (some (askKey P (a + 1) sk)) ans
  | awaitAhead {ans} (a sid : Nat) (sk skr : Bytes) (h : a ≤ maxKeyId) (hs : sid = a + a)
      (hb : base (1 + a + a) = Chain.new P (base sid).nextRoot (tsk P skr (P.pub sk)))
      (ha : ∀ x ∈ ans, x.1 = askKey P a sk → ∃ k, x.2 = .reverse k (some (P.pub skr))) :
      Phase P base (.awaiting a a sk) sid (.active a a skr (P.pub sk)) (1 + a + a) (some (askKey P a sk)) ans
  | conf {ans} (a : Nat) (sk old skr : Bytes) (h : a + 1 ≤ maxKeyId) : Phase P base (.confirming (a + 1) a sk (P.pub skr)) (1 + a + a)
      (.active a a skr (P.pub old)) (1 + a + a) (some (.forward (a + 1) (some (P.pub sk)) false)) ans
  | confAhead {ans} (a : Nat) (sk skr : Bytes) (h : a + 1 ≤ maxKeyId)
      (hb : base (1 + (a + 1) + a) = Chain.new P (base (1 + a + a)).nextRoot (tsk P skr (P.pub sk)))
      (ha : ∀ x ∈ ans, x.1 = .forward (a + 1) (some (P.pub sk)) false → ∃ k, x.2 = .reverse k none) :
      Phase P base (.confirming (a + 1) a sk (P.pub skr)) (1 + a + a)
        (.active (a + 1) a skr (P.pub sk)) (1 + (a + 1) + a) (some (.forward (a + 1) (some (P.pub sk)) false)) ans
  | idle {last ans} (a b : Nat) (sk skr : Bytes) (h : a = b ∨ a = b + 1) (ha : a ≤ maxKeyId) :
      Phase P base (.active a b sk (P.pub skr)) (1 + a + b) (.active a b skr (P.pub sk)) (1 + a + b) last ans

structure Inv (P : Prims) (base : Nat → Chain) (p : Pair) : Prop where
  chS : p.S.chain = (base p.S.id).iter P p.S.index
  chR : p.R.chain = (base p.R.id).iter P p.R.index
  outS : ∀ e ∈ p.outS, e.setId ≤ p.S.id ∧ e = (base e.setId).entry P e.setId e.index
  outR : ∀ e ∈ p.outR, e.setId ≤ p.R.id ∧ e = (base e.setId).entry P e.setId e.index
  phase : Phase P base p.S.state p.S.id p.R.state p.R.id p.sent.getLast? p.answers
  sent : ∀ f ∈ p.sent, Old p.R f ∨ (Waiting p.S ∧ p.sent.getLast? = some f)
  ans : ∀ a ∈ p.answers, Old p.R a.1 ∧ ∃ k key, a.2 = .reverse k key

theorem next_spec (P : Prims) (t : TagSet) : (t.next P).2.state = t.state ∧ (t.next P).2.id = t.id ∧
    ∀ c : Chain, t.chain = c.iter P t.index → (t.next P).2.chain = c.iter P (t.next P).2.index ∧
      ∀ e ∈ (t.next P).1.toList, e = c.entry P t.id t.index := by
  unfold TagSet.next
  split
  · refine ⟨rfl, rfl, fun c hc => ⟨by simp only [Chain.iter, hc], fun e he => ?_⟩⟩
    simp only [Option.toList_some, List.mem_singleton] at he
    subst he
    simp only [Chain.entry, hc]
  · exact ⟨rfl, rfl, fun c hc => ⟨hc, by simp⟩⟩

theorem old_congr {r r' : TagSet} (h : r'.state = r.state) {f : NextKey} : Old r' f ↔ Old r f := by
  unfold Old; rw [h]

theorem waiting_congr {r r' : TagSet} (h : r'.state = r.state) : Waiting r' ↔ Waiting r := by
  unfold Waiting; rw [h]

theorem inv_takeS {P : Prims} {base : Nat → Chain} {p : Pair} (h : Inv P base p) :
    Inv P base { p with S := (p.S.next P).2, outS := p.outS ++ (p.S.next P).1.toList } := by
  obtain ⟨h1, h2, h3⟩ := next_spec P p.S
  obtain ⟨h3, h4⟩ := h3 _ h.chS
  refine ⟨by simp only [h2]; exact h3, h.chR, ?_, h.outR, by simp only [h1, h2]; exact h.phase, ?_, h.ans⟩
  · intro e he
    simp only [List.mem_append] at he
    rcases he with he | he
    · simp only [h2]; exact h.outS e he
    · have := h4 e he
      subst this
      exact ⟨Nat.le_of_eq h2.symm, rfl⟩
  · intro f hf
    simp only [waiting_congr h1]
    exact h.sent f hf

theorem inv_takeR {P : Prims} {base : Nat → Chain} {p : Pair} (h : Inv P base p) :
    Inv P base { p with R := (p.R.next P).2, outR := p.outR ++ (p.R.next P).1.toList } := by
  obtain ⟨h1, h2, h3⟩ := next_spec P p.R
  obtain ⟨h3, h4⟩ := h3 _ h.chR
  refine ⟨h.chS, by simp only [h2]; exact h3, h.outS, ?_, by simp only [h1, h2]; exact h.phase, ?_, ?_⟩
  · intro e he
    simp only [List.mem_append] at he
    rcases he with he | he
    · simp only [h2]; exact h.outR e he
    · have := h4 e he
      subst this
      exact ⟨Nat.le_of_eq h2.symm, rfl⟩
  · intro f hf
    simp only [old_congr h1]
    exact h.sent f hf
  · intro f hf
    simp only [old_congr h1]
    exact h.ans f hf

/-- Making a request: the key of the next phase. -/
theorem inv_request {P : Prims} {base : Nat → Chain} {p : Pair} (chk : Bool) (sk : Bytes) (h : Inv P base p) :
    (∃ p', p.step P chk (.request sk) = .ok p' ∧ Inv P base p') ∨
    (p.S.id = 65535 ∧ p.step P chk (.request sk) = .error .terminated) := by
  obtain ⟨chS, chR, outS, outR, phase, sent, ans⟩ := h
  by_cases hi : p.S.index ≤ ratchetThreshold
  · refine Or.inl ⟨p, ?_, ⟨chS, chR, outS, outR, phase, sent, ans⟩⟩
    simp [Pair.step, TagSet.tryGenerate, if_pos hi]
  obtain ⟨S, R, snt, answ, oS, oR⟩ := p
  obtain ⟨sc, ss, si, sid⟩ := S
  obtain ⟨rc, rs, ri, rid⟩ := R
  simp only at *
  generalize hl : snt.getLast? = last at *
  cases phase with
  | start =>
    refine Or.inl ⟨_, by simp only [Pair.step, TagSet.tryGenerate, if_neg hi]; rfl, ⟨chS, chR, outS, outR, ?_, ?_, ans⟩⟩
    · simp only [Option.toList_some, List.getLast?_concat]
      exact Phase.first sk
    · intro f hf
      simp only [Option.toList_some, List.mem_append, List.mem_singleton, List.getLast?_concat] at hf ⊢
      rcases hf with hf | hf
      · rcases sent f hf with h | h
        · exact Or.inl h
        · exact absurd h.1 (by simp [Waiting])
      · subst hf; exact Or.inr ⟨trivial, rfl⟩
  | first k =>
    refine Or.inl ⟨_, by simp only [Pair.step, TagSet.tryGenerate, if_neg hi]; rfl, ⟨chS, chR, outS, outR, ?_, ?_, ans⟩⟩
    · simp only [Option.toList_some, List.getLast?_concat, and_self, if_true]
      exact Phase.first k
    · intro f hf
      simp only [Option.toList_some, List.mem_append, List.mem_singleton, List.getLast?_concat] at hf ⊢
      rcases hf with hf | hf
      · rcases sent f hf with h | h
        · exact Or.inl h
        · refine Or.inr ⟨trivial, ?_⟩
          rw [← h.2]; rfl
      · subst hf; exact Or.inr ⟨trivial, rfl⟩
  | await a k skr hm =>
    refine Or.inl ⟨_, by simp only [Pair.step, TagSet.tryGenerate, if_neg hi]; rfl, ⟨chS, chR, outS, outR, ?_, ?_, ans⟩⟩
    · simp only [Option.toList_some, List.getLast?_concat, Nat.add_one_ne_zero, and_self, if_false]
      exact Phase.await a k skr hm
    · intro f hf
      simp only [Option.toList_some, List.mem_append, List.mem_singleton, List.getLast?_concat] at hf ⊢
      rcases hf with hf | hf
      · rcases sent f hf with h | h
        · exact Or.inl h
        · refine Or.inr ⟨trivial, ?_⟩
          rw [← h.2]; simp [askKey]
      · subst hf; exact Or.inr ⟨trivial, rfl⟩
  | awaitAhead a sid k skr hm hs hb ha =>
    have hk : (if a = 0 ∧ a = 0 then NextKey.forward 0 (some (P.pub k)) true else .forward a none true) = askKey P a k := by
      simp [askKey]
    refine Or.inl ⟨_, by simp only [Pair.step, TagSet.tryGenerate, if_neg hi]; rfl, ⟨chS, chR, outS, outR, ?_, ?_, ans⟩⟩
    · simp only [Option.toList_some, List.getLast?_concat, hk]
      exact Phase.awaitAhead a sid k skr hm hs hb ha
    · intro f hf
      simp only [Option.toList_some, List.mem_append, List.mem_singleton, List.getLast?_concat, hk] at hf ⊢
      rcases hf with hf | hf
      · rcases sent f hf with h | h
        · exact Or.inl h
        · exact Or.inr ⟨trivial, h.2⟩
      · subst hf; exact Or.inr ⟨trivial, rfl⟩
  | conf a k old skr hm =>
    refine Or.inl ⟨_, by simp only [Pair.step, TagSet.tryGenerate, if_neg hi]; rfl, ⟨chS, chR, outS, outR, ?_, ?_, ans⟩⟩
    · simp only [Option.toList_some, List.getLast?_concat]
      exact Phase.conf a k old skr hm
    · intro f hf
      simp only [Option.toList_some, List.mem_append, List.mem_singleton, List.getLast?_concat] at hf ⊢
      rcases hf with hf | hf
      · rcases sent f hf with h | h
        · exact Or.inl h
        · exact Or.inr ⟨trivial, h.2⟩
      · subst hf; exact Or.inr ⟨trivial, rfl⟩
  | confAhead a k skr hm hb ha =>
    refine Or.inl ⟨_, by simp only [Pair.step, TagSet.tryGenerate, if_neg hi]; rfl, ⟨chS, chR, outS, outR, ?_, ?_, ans⟩⟩
    · simp only [Option.toList_some, List.getLast?_concat]
      exact Phase.confAhead a k skr hm hb ha
    · intro f hf
      simp only [Option.toList_some, List.mem_append, List.mem_singleton, List.getLast?_concat] at hf ⊢
      rcases hf with hf | hf
      · rcases sent f hf with h | h
        · exact Or.inl h
        · exact Or.inr ⟨trivial, h.2⟩
      · subst hf; exact Or.inr ⟨trivial, rfl⟩
  | idle a b k skr hab hm =>
    have hold : ∀ f ∈ snt, Old ⟨rc, .active a b skr (P.pub k), ri, 1 + a + b⟩ f := by
      intro f hf
      rcases sent f hf with h | h
      · exact h
      · exact absurd h.1 (by simp [Waiting])
    rcases hab with rfl | rfl
    · by_cases hx : a + 1 > maxKeyId
      · refine Or.inr ⟨by unfold maxKeyId at *; omega, ?_⟩
        simp only [Pair.step, TagSet.tryGenerate, if_neg hi, if_pos hx, if_pos (show (1 + a + a) % 2 ≠ 0 by omega)]
      · refine Or.inl ⟨_, by
          simp only [Pair.step, TagSet.tryGenerate, if_neg hi, if_neg hx, if_pos (show (1 + a + a) % 2 ≠ 0 by omega)]; rfl,
          ⟨chS, chR, outS, outR, ?_, ?_, ans⟩⟩
        · simp only [Option.toList_some, List.getLast?_concat]
          exact Phase.conf a sk k skr (by omega)
        · intro f hf
          simp only [Option.toList_some, List.mem_append, List.mem_singleton, List.getLast?_concat] at hf ⊢
          rcases hf with hf | hf
          · exact Or.inl (hold f hf)
          · subst hf; exact Or.inr ⟨trivial, rfl⟩
    · refine Or.inl ⟨_, by
        simp only [Pair.step, TagSet.tryGenerate, if_neg hi, if_neg (show ¬ (b + 1 > maxKeyId) by omega),
          if_neg (show ¬ ((1 + (b + 1) + b) % 2 ≠ 0) by omega)]; rfl, ⟨chS, chR, outS, outR, ?_, ?_, ans⟩⟩
      · simp only [Option.toList_some, List.getLast?_concat]
        exact Phase.await b k skr hm
      · intro f hf
        simp only [Option.toList_some, List.mem_append, List.mem_singleton, List.getLast?_concat] at hf ⊢
        rcases hf with hf | hf
        · exact Or.inl (hold f hf)
        · subst hf; exact Or.inr ⟨trivial, rfl⟩

/-- What an old request is answered with. -/
def oldAnswer (P : Prims) (recv : Nat) (own : Bytes) : NextKey → NextKey
  | .forward k _ true => .reverse k (some (P.pub own))
  | _ => .reverse recv none

theorem handle_old (P : Prims) (chk : Bool) (sk : Bytes) {r : TagSet} {f : NextKey} {s v : Nat} {own pk : Bytes}
    (hs : r.state = .active s v own pk) (h : Old r f) : r.handle P chk sk f = (.ok (some (oldAnswer P v own f)), r) := by
  obtain ⟨s', v', own', pk', hs', h⟩ := h
  rw [hs] at hs'
  injection hs' with e1 e2 e3 e4
  subst e1 e2 e3 e4
  unfold TagSet.handle
  rw [hs]
  match f, h with
  | .forward k (some x) false, h =>
    simp only at h
    have : decide (s < k) = false := by simp; omega
    simp only [this, oldAnswer]
  | .forward k none true, h =>
    simp only at h
    have : decide (v < k) = false := by simp; omega
    simp only [this, oldAnswer]
  | .forward k (some x) true, h => simp only [oldAnswer]

theorem inv_old {P : Prims} {base : Nat → Chain} {p : Pair} (chk : Bool) (sk : Bytes) (h : Inv P base p) {f : NextKey} (hf : Old p.R f) :
    ∃ v, p.R.handle P chk sk f = (.ok (some v), p.R) ∧ Inv P base { p with answers := p.answers ++ [(f, v)] } := by
  have ho := hf
  obtain ⟨s, v, own, pk, hs, _⟩ := hf
  refine ⟨_, handle_old P chk sk hs ho, h.chS, h.chR, h.outS, h.outR, ?_, h.sent, ?_⟩
  · have ph := h.phase
    simp only at *
    rw [hs] at ph ⊢
    revert ph
    generalize p.S.state = ss, p.S.id = sid, p.R.id = rid, p.sent.getLast? = last
    intro ph
    cases ph with
    | await a sk' _ hm => exact Phase.await _ sk' _ hm
    | awaitAhead a sid sk' _ hm hsid hb ha =>
      refine Phase.awaitAhead _ _ sk' _ hm hsid hb (fun x hx hx1 => ?_)
      simp only [List.mem_append, List.mem_singleton] at hx
      rcases hx with hx | rfl
      · exact ha x hx hx1
      · simp only at hx1
        subst hx1
        simp only [askKey]
        split
        · exact ⟨_, rfl⟩
        · exact ⟨_, rfl⟩
    | conf a sk' old _ hm => exact Phase.conf _ sk' old _ hm
    | confAhead a sk' _ hm hb ha =>
      refine Phase.confAhead _ sk' _ hm hb (fun x hx hx1 => ?_)
      simp only [List.mem_append, List.mem_singleton] at hx
      rcases hx with hx | rfl
      · exact ha x hx hx1
      · simp only at hx1
        subst hx1
        exact ⟨_, rfl⟩
    | idle a b sk' _ hab hm => exact Phase.idle _ _ sk' _ hab hm
  · intro a ha
    simp only [List.mem_append, List.mem_singleton] at ha
    rcases ha with ha | rfl
    · exact h.ans a ha
    · refine ⟨ho, ?_⟩
      simp only [oldAnswer]
      split <;> exact ⟨_, _, rfl⟩

/-- The receiver goes to the next set. -/
theorem inv_ahead {P : Prims} {base : Nat → Chain} {p : Pair} (h : Inv P base p) {f v : NextKey} {own pk : Bytes} {s r : Nat}
    (hid : p.S.id = p.R.id) (hlt : p.R.id < 1 + s + r) (hl : p.sent.getLast? = some f) (hv : ∃ k key, v = .reverse k key)
    (hf : Old (p.R.reinit P own pk s r) f) (hold : ∀ g, Old p.R g → Old (p.R.reinit P own pk s r) g)
    (hp : ∀ base' : Nat → Chain, base' (1 + s + r) = Chain.new P (base' p.S.id).nextRoot (tsk P own pk) →
      Phase P base' p.S.state p.S.id (.active s r own pk) (1 + s + r) p.sent.getLast? (p.answers ++ [(f, v)])) :
    ∃ base', Inv P base' { p with R := p.R.reinit P own pk s r, answers := p.answers ++ [(f, v)] } := by
  have hroot : p.R.chain.nextRoot = (base p.S.id).nextRoot := by rw [h.chR, iter_nextRoot, hid]
  refine ⟨fun i => if i = 1 + s + r then Chain.new P (base p.S.id).nextRoot (tsk P own pk) else base i, ?_, ?_, ?_, ?_, ?_, ?_, ?_⟩
  · simp only [if_neg (show ¬ p.S.id = 1 + s + r by omega)]
    exact h.chS
  · simp only [TagSet.reinit, if_true, Chain.iter, hroot, tsk]
  · intro e he
    have := h.outS e he
    refine ⟨this.1, ?_⟩
    rw [if_neg (by omega)]
    exact this.2
  · intro e he
    have := h.outR e he
    refine ⟨by simp only [TagSet.reinit]; omega, ?_⟩
    rw [if_neg (by omega)]
    exact this.2
  · exact hp _ (by simp only [if_true, if_neg (show ¬ p.S.id = 1 + s + r by omega)])
  · intro g hg
    rcases h.sent g hg with h' | h'
    · exact Or.inl (hold g h')
    · have : g = f := by
        rw [hl] at h'
        exact (Option.some.inj h'.2).symm
      subst this
      exact Or.inl hf
  · intro a ha
    simp only [List.mem_append, List.mem_singleton] at ha
    rcases ha with ha | rfl
    · exact ⟨hold _ (h.ans a ha).1, (h.ans a ha).2⟩
    · exact ⟨hf, hv⟩

theorem old_mono {r : TagSet} {s v s' v' : Nat} {own pk own' pk' : Bytes} (P : Prims) (hs : r.state = .active s v own pk) (h1 : s ≤ s') (h2 : v ≤ v')
    (g : NextKey) (h : Old r g) : Old (r.reinit P own' pk' s' v') g := by
  obtain ⟨a, b, c, d, ha, h⟩ := h
  rw [hs] at ha
  injection ha with e1 e2 e3 e4
  subst e1 e2 e3 e4
  refine ⟨s', v', own', pk', rfl, ?_⟩
  match g, h with
  | .forward k (some x) false, h => exact Nat.le_trans h h1
  | .forward k none true, h => exact Nat.le_trans h h2
  | .forward k (some x) true, h => exact h

theorem inv_deliver {P : Prims} {base : Nat → Chain} {p : Pair} (chk : Bool) (i : Nat) (sk : Bytes) (h : Inv P base p) :
    ∃ p', p.step P chk (.deliver i sk) = .ok p' ∧ ∃ base', Inv P base' p' := by
  cases hi : p.sent[i]? with
  | none => exact ⟨p, by simp only [Pair.step, hi], base, h⟩
  | some f =>
    by_cases ho : Old p.R f
    · obtain ⟨v, h1, h2⟩ := inv_old chk sk h ho
      exact ⟨_, by simp only [Pair.step, hi, h1, Option.toList_some, List.map_cons, List.map_nil], base, h2⟩
    · obtain ⟨hw, hl⟩ := (h.sent f (List.mem_of_getElem? hi)).resolve_left ho
      have noans : ∀ x ∈ p.answers, x.1 ≠ f := fun x hx e => ho (e ▸ (h.ans x hx).1)
      have ph := h.phase
      rw [hl] at ph
      simp only [Pair.step, hi]
      generalize hss : p.S.state = ss at ph
      generalize hsi : p.S.id = sid at ph
      generalize hrs : p.R.state = rs at ph
      generalize hri : p.R.id = rid at ph
      generalize hla : some f = last at ph
      cases ph with
      | start => simp [Waiting, hss] at hw
      | idle => simp [Waiting, hss] at hw
      | first k =>
        injection hla with hla
        subst hla
        refine ⟨_, by simp only [TagSet.handle, hrs, askKey, if_true]; rfl, ?_⟩
        refine inv_ahead h (f := askKey P 0 k) (v := .reverse 0 (some (P.pub sk))) (by omega) (by omega) hl ⟨_, _, rfl⟩ ?_ ?_ ?_
        · exact ⟨_, _, _, _, rfl, rfl⟩
        · rintro g ⟨_, _, _, _, hg, _⟩
          rw [hrs] at hg; cases hg
        · intro base' hb
          rw [hss, hsi, hl]
          rw [hsi] at hb
          refine Phase.awaitAhead 0 0 k sk (by decide) rfl hb ?_
          intro x hx hx1
          simp only [List.mem_append, List.mem_singleton] at hx
          rcases hx with hx | rfl
          · exact absurd hx1 (noans x hx)
          · exact ⟨_, rfl⟩
      | await a k skr hm =>
        injection hla with hla
        subst hla
        have hd : decide (a < a + 1) = true := by simp
        have hd2 : ¬ (a + 1 > maxKeyId) := by omega
        refine ⟨_, by simp only [TagSet.handle, hrs, askKey, Nat.add_one_ne_zero, if_false, hd, if_neg hd2]; rfl, ?_⟩
        refine inv_ahead h (f := askKey P (a + 1) k) (v := .reverse (a + 1) (some (P.pub sk))) (by omega) (by omega) hl ⟨_, _, rfl⟩ ?_ ?_ ?_
        · exact ⟨_, _, _, _, rfl, Nat.le_refl _⟩
        · exact old_mono P hrs (by omega) (by omega)
        · intro base' hb
          rw [hss, hsi, hl]
          rw [hsi] at hb
          refine Phase.awaitAhead (a + 1) _ k sk hm (by omega) hb ?_
          intro x hx hx1
          simp only [List.mem_append, List.mem_singleton] at hx
          rcases hx with hx | rfl
          · exact absurd hx1 (noans x hx)
          · exact ⟨_, rfl⟩
      | conf a k old skr hm =>
        injection hla with hla
        subst hla
        have hd : decide (a < a + 1) = true := by simp
        have hd2 : ¬ (a + 1 > maxKeyId) := by omega
        refine ⟨_, by simp only [TagSet.handle, hrs, hd, if_neg hd2]; rfl, ?_⟩
        refine inv_ahead h (f := .forward (a + 1) (some (P.pub k)) false) (v := .reverse a none) (by omega) (by omega) hl ⟨_, _, rfl⟩ ?_ ?_ ?_
        · exact ⟨_, _, _, _, rfl, Nat.le_refl _⟩
        · exact old_mono P hrs (by omega) (by omega)
        · intro base' hb
          rw [hss, hsi, hl]
          rw [hsi] at hb
          refine Phase.confAhead a k skr hm hb ?_
          intro x hx hx1
          simp only [List.mem_append, List.mem_singleton] at hx
          rcases hx with hx | rfl
          · exact absurd hx1 (noans x hx)
          · exact ⟨_, rfl⟩
      | awaitAhead a sid k skr hm hs hb ha =>
        injection hla with hla
        subst hla
        refine absurd ⟨a, a, skr, _, hrs, ?_⟩ ho
        simp only [askKey]
        split
        · rename_i hk; split at hk <;> simp_all
        · rename_i hk; split at hk <;> simp_all
        · rename_i hk; split at hk <;> simp_all
        · rename_i h1 h2 h3
          by_cases a0 : a = 0
          · simp [a0] at h3
          · simp [a0] at h2
      | confAhead a k skr hm hb ha =>
        injection hla with hla
        subst hla
        exact absurd ⟨a + 1, a, skr, _, hrs, Nat.le_refl _⟩ ho

/-- The sender follows. -/
theorem inv_follow {P : Prims} {base : Nat → Chain} {p : Pair} (h : Inv P base p) {own pk : Bytes} {s r : Nat}
    (hid : p.R.id = 1 + s + r) (hlt : p.S.id ≤ 1 + s + r) (hb : base (1 + s + r) = Chain.new P (base p.S.id).nextRoot (tsk P own pk))
    (hl : ∀ f, p.sent.getLast? = some f → Old p.R f)
    (hp : Phase P base (.active s r own pk) (1 + s + r) p.R.state p.R.id p.sent.getLast? p.answers) :
    Inv P base { p with S := p.S.reinit P own pk s r } := by
  refine ⟨?_, h.chR, ?_, h.outR, hp, ?_, h.ans⟩
  · simp only [TagSet.reinit, Chain.iter, hb, h.chS, iter_nextRoot, tsk]
  · intro e he
    have := h.outS e he
    exact ⟨by simp only [TagSet.reinit]; omega, this.2⟩
  · intro g hg
    rcases h.sent g hg with h' | h'
    · exact Or.inl h'
    · exact Or.inl (hl g h'.2)

theorem inv_answer {P : Prims} (hdh : ∀ a b, P.dh a (P.pub b) = P.dh b (P.pub a)) {base : Nat → Chain} {p : Pair} (chk : Bool) (j : Nat)
    (sk : Bytes) (h : Inv P base p) (hpr : Prompt p (.answer j sk)) :
    ∃ p', p.step P chk (.answer j sk) = .ok p' ∧ Inv P base p' := by
  have htsk : ∀ a b, tsk P a (P.pub b) = tsk P b (P.pub a) := by intro a b; simp only [tsk, hdh a b]
  cases hj : p.answers[j]? with
  | none => exact ⟨p, by simp only [Pair.step, hj], h⟩
  | some a =>
    have ham := List.mem_of_getElem? hj
    obtain ⟨hold, n, key, hrev⟩ := h.ans a ham
    have hlast : Waiting p.S → p.sent.getLast? = some a.1 := fun hw => hpr hw a hj
    have ph := h.phase
    simp only [Pair.step, hj]
    generalize hss : p.S.state = ss at ph
    generalize hsi : p.S.id = sid at ph
    generalize hrs : p.R.state = rs at ph
    generalize hri : p.R.id = rid at ph
    generalize hla : p.sent.getLast? = last at ph
    have hwait : Waiting p.S → last = some a.1 := fun hw => hla ▸ hlast hw
    obtain ⟨os, ov, osk, opk, hos, hof⟩ := hold
    rw [hrs] at hos
    cases ph with
    | start => cases hos
    | first k => cases hos
    | await b k skr hm =>
      have := hwait (by simp [Waiting, hss])
      injection this with this
      rw [← this] at hof
      injection hos with e1 e2
      subst e1 e2
      simp only [askKey, Nat.add_one_ne_zero, if_false] at hof
      omega
    | conf b k old skr hm =>
      have := hwait (by simp [Waiting, hss])
      injection this with this
      rw [← this] at hof
      injection hos with e1 e2
      subst e1 e2
      simp only at hof
      omega
    | idle b c k skr hab hm =>
      refine ⟨p, ?_, h⟩
      simp only [TagSet.handle, hss, hrev]
    | awaitAhead b sid k skr hm hs hb ha =>
      have hw := hwait (by simp [Waiting, hss])
      injection hw with hw
      obtain ⟨n', ha⟩ := ha a ham hw.symm
      rw [hrev] at ha
      injection ha with e1 e2
      subst e1 e2
      refine ⟨_, by simp only [TagSet.handle, hss, hrev]; rfl, ?_⟩
      refine inv_follow h hri (by omega) ?_ ?_ ?_
      · rw [hsi, hb, htsk]
      · intro f hf
        rw [hla] at hf
        injection hf with hf
        subst hf
        rw [← hw] at hof
        exact ⟨os, ov, osk, opk, hrs.trans hos, hof⟩
      · rw [hrs, hri, hla]
        exact Phase.idle b b k skr (Or.inl rfl) hm
    | confAhead b k skr hm hb ha =>
      have hw := hwait (by simp [Waiting, hss])
      injection hw with hw
      obtain ⟨n', ha⟩ := ha a ham hw.symm
      rw [hrev] at ha
      injection ha with e1 e2
      subst e1 e2
      refine ⟨_, by simp only [TagSet.handle, hss, hrev]; rfl, ?_⟩
      refine inv_follow h hri (by omega) ?_ ?_ ?_
      · rw [hsi, hb, htsk]
      · intro f hf
        rw [hla] at hf
        injection hf with hf
        subst hf
        rw [← hw] at hof
        exact ⟨os, ov, osk, opk, hrs.trans hos, hof⟩
      · rw [hrs, hri, hla]
        exact Phase.idle (b + 1) b k skr (Or.inr rfl) hm

theorem inv_new (P : Prims) (root key : Bytes) : Inv P (fun _ => Chain.new P root key) (Pair.new P root key) :=
  ⟨rfl, rfl, by simp [Pair.new], by simp [Pair.new], Phase.start, by simp [Pair.new], by simp [Pair.new]⟩

theorem inv_step {P : Prims} (hdh : ∀ a b, P.dh a (P.pub b) = P.dh b (P.pub a)) {base : Nat → Chain} {p : Pair} (chk : Bool) (ev : Ev)
    (h : Inv P base p) (hp : Prompt p ev) : (∃ p', p.step P chk ev = .ok p' ∧ ∃ base', Inv P base' p') ∨
      (∃ sk, ev = .request sk ∧ p.S.id = 65535 ∧ p.step P chk ev = .error .terminated) := by
  cases ev with
  | takeS => exact Or.inl ⟨_, rfl, base, inv_takeS h⟩
  | takeR => exact Or.inl ⟨_, rfl, base, inv_takeR h⟩
  | request sk =>
    rcases inv_request chk sk h with ⟨p', h1, h2⟩ | h
    · exact Or.inl ⟨p', h1, base, h2⟩
    · exact Or.inr ⟨sk, rfl, h⟩
  | deliver i sk => exact Or.inl (inv_deliver chk i sk h)
  | answer j sk =>
    obtain ⟨p', h1, h2⟩ := inv_answer hdh chk j sk h hp
    exact Or.inl ⟨p', h1, base, h2⟩

theorem inv_reaches {P : Prims} (hdh : ∀ a b, P.dh a (P.pub b) = P.dh b (P.pub a)) {chk : Bool} {root key : Bytes} {p : Pair}
    (h : Reaches P chk (Pair.new P root key) p) : ∃ base, Inv P base p := by
  induction h with
  | refl => exact ⟨_, inv_new P root key⟩
  | step ev _ hp hs ih =>
    obtain ⟨base, ih⟩ := ih
    rcases inv_step hdh chk ev ih hp with ⟨p', h1, h2⟩ | ⟨_, _, _, h1⟩
    · rw [hs] at h1
      injection h1 with h1
      exact h1 ▸ h2
    · rw [hs] at h1
      cases h1

theorem ids_of_inv {P : Prims} {base : Nat → Chain} {p : Pair} (h : Inv P base p) :
    (p.S.id = p.R.id ∨ (Waiting p.S ∧ p.S.id + 1 = p.R.id)) := by
  have ph := h.phase
  generalize hss : p.S.state = ss at ph
  generalize hrs : p.R.state = rs at ph
  generalize hsi : p.S.id = sid at *
  generalize hri : p.R.id = rid at *
  generalize p.sent.getLast? = last at ph
  cases ph with
  | start => exact Or.inl rfl
  | first => exact Or.inl rfl
  | await => exact Or.inl rfl
  | conf => exact Or.inl rfl
  | idle => exact Or.inl rfl
  | awaitAhead a sid k skr hm hs => exact Or.inr ⟨by simp [Waiting, hss], by omega⟩
  | confAhead a k skr hm hs => exact Or.inr ⟨by simp [Waiting, hss], by omega⟩

/-- C56, under the condition `Prompt` on the schedule: the receiver is at the sender's set or, while the sender waits, one set further, and
entries with the same set id and index have the same key and tag at both ends. -/
theorem C56_lockstep_partial {P : Prims} (hdh : ∀ a b, P.dh a (P.pub b) = P.dh b (P.pub a)) {chk : Bool} {root key : Bytes} {p : Pair}
    (h : Reaches P chk (Pair.new P root key) p) : (p.S.id = p.R.id ∨ (Waiting p.S ∧ p.S.id + 1 = p.R.id)) ∧
    ∀ e ∈ p.outS, ∀ e' ∈ p.outR, e.setId = e'.setId → e.index = e'.index → e = e' := by
  obtain ⟨base, h⟩ := inv_reaches hdh h
  refine ⟨ids_of_inv h, fun e he e' he' h1 h2 => ?_⟩
  rw [(h.outS e he).2, (h.outR e' he').2, h1, h2]

/-- The only failure, under the same condition: when the sender is at the last set and asks for a new one, the session is terminated. -/
theorem C56_terminates_partial {P : Prims} (hdh : ∀ a b, P.dh a (P.pub b) = P.dh b (P.pub a)) {chk : Bool} {root key : Bytes} {p : Pair}
    (h : Reaches P chk (Pair.new P root key) p) (ev : Ev) (hp : Prompt p ev) : (∃ p', p.step P chk ev = .ok p') ∨
      (∃ sk, ev = .request sk ∧ p.S.id = 65535 ∧ p.step P chk ev = .error .terminated) := by
  obtain ⟨base, h⟩ := inv_reaches hdh h
  rcases inv_step hdh chk ev h hp with ⟨p', h1, _⟩ | h
  · exact Or.inl ⟨p', h1⟩
  · exact Or.inr h

/-- After enough messages a request that arrives and whose answer arrives takes both ends to the next set. -/
theorem C56_advances_partial {P : Prims} (hdh : ∀ a b, P.dh a (P.pub b) = P.dh b (P.pub a)) {chk : Bool} {root key : Bytes} {p : Pair}
    (h : Reaches P chk (Pair.new P root key) p) (hw : ¬ Waiting p.S) (hi : ratchetThreshold < p.S.index) (hid : p.S.id < 65535)
    (sk skr : Bytes) : ∃ p1 p2 p3, p.step P chk (.request sk) = .ok p1 ∧ p1.step P chk (.deliver p.sent.length skr) = .ok p2 ∧
      p2.step P chk (.answer p.answers.length skr) = .ok p3 ∧ p3.S.id = p.S.id + 1 ∧ p3.R.id = p.S.id + 1 := by
  obtain ⟨base, h⟩ := inv_reaches hdh h
  obtain ⟨_, _, _, _, phase, _, _⟩ := h
  obtain ⟨S, R, snt, answ, oS, oR⟩ := p
  obtain ⟨sc, ss, si, sid⟩ := S
  obtain ⟨rc, rs, ri, rid⟩ := R
  simp only at *
  have hi' : ¬ si ≤ ratchetThreshold := by omega
  generalize snt.getLast? = last at *
  cases phase with
  | start =>
    refine ⟨_, _, _, by simp only [Pair.step, TagSet.tryGenerate, if_neg hi', Option.toList_some]; rfl, by
      simp only [Pair.step, List.getElem?_concat_length, TagSet.handle, Option.toList_some, List.map_cons, List.map_nil]; rfl, by
      simp only [Pair.step, List.getElem?_concat_length, TagSet.handle]; rfl, rfl, rfl⟩
  | first => simp [Waiting] at hw
  | await => simp [Waiting] at hw
  | conf => simp [Waiting] at hw
  | awaitAhead => simp [Waiting] at hw
  | confAhead => simp [Waiting] at hw
  | idle a b k kr hab hm =>
    rcases hab with rfl | rfl
    · have h1 : ¬ (a + 1 > maxKeyId) := by unfold maxKeyId; omega
      have h2 : (1 + a + a) % 2 ≠ 0 := by omega
      have h3 : decide (a < a + 1) = true := by simp
      refine ⟨_, _, _, by simp only [Pair.step, TagSet.tryGenerate, if_neg hi', Option.toList_some, if_neg h1, if_pos h2]; rfl, by
        simp only [Pair.step, List.getElem?_concat_length, TagSet.handle, Option.toList_some, List.map_cons, List.map_nil, h3, if_neg h1]; rfl, by
        simp only [Pair.step, List.getElem?_concat_length, TagSet.handle]; rfl, ?_, ?_⟩
      · simp only [TagSet.reinit]; omega
      · simp only [TagSet.reinit]; omega
    · have h1 : ¬ (b + 1 > maxKeyId) := by omega
      have h2 : ¬ ((1 + (b + 1) + b) % 2 ≠ 0) := by omega
      have h3 : decide (b < b + 1) = true := by simp
      refine ⟨_, _, _, by simp only [Pair.step, TagSet.tryGenerate, if_neg hi', Option.toList_some, if_neg h1, if_neg h2]; rfl, by
        simp only [Pair.step, List.getElem?_concat_length, TagSet.handle, Option.toList_some, List.map_cons, List.map_nil, h3, if_neg h1]; rfl, by
        simp only [Pair.step, List.getElem?_concat_length, TagSet.handle]; rfl, ?_, ?_⟩
      · simp only [TagSet.reinit]; omega
      · simp only [TagSet.reinit]; omega

/-! ### What goes wrong with late answers -/

/-- After any events, prompt or not. -/
inductive Runs (P : Prims) (chk : Bool) : Pair → Pair → Prop where
  | refl (p : Pair) : Runs P chk p p
  | step {p q r : Pair} (ev : Ev) : Runs P chk p q → q.step P chk ev = .ok r → Runs P chk p r

theorem Runs.trans {P : Prims} {chk : Bool} {p q r : Pair} (h : Runs P chk p q) (h' : Runs P chk q r) : Runs P chk p r := by
  induction h' with
  | refl => exact h
  | step ev _ hs ih => exact .step ev ih hs

theorem takes (P : Prims) (chk : Bool) (n : Nat) (p : Pair) (hi : p.S.index = 0) (hn : n ≤ 65535) : ∃ c out, c.nextRoot = p.S.chain.nextRoot ∧
    Runs P chk p { p with S := { p.S with chain := c, index := n }, outS := out } := by
  induction n with
  | zero =>
    refine ⟨p.S.chain, p.outS, rfl, ?_⟩
    obtain ⟨⟨_, _, _, _⟩, _, _, _, _, _⟩ := p
    simp only at hi
    subst hi
    exact .refl _
  | succ n ih =>
    obtain ⟨c, out, h1, h2⟩ := ih (by omega)
    refine ⟨(c.step P).2, out ++ [{ key := (c.step P).1.1, tag := (c.step P).1.2, index := n, setId := p.S.id }], h1, .step .takeS h2 ?_⟩
    have : n + 1 < 2 ^ 16 := by omega
    simp only [Pair.step, TagSet.next, if_pos this, Option.toList_some]

theorem Runs.takes {P : Prims} {chk : Bool} {q p : Pair} (h : Runs P chk q p) (n : Nat) (hi : p.S.index = 0) (hn : n ≤ 65535) :
    ∃ c out, c.nextRoot = p.S.chain.nextRoot ∧ Runs P chk q { p with S := { p.S with chain := c, index := n }, outS := out } := by
  obtain ⟨c, out, h1, h2⟩ := Ratchet.takes P chk n p hi hn
  exact ⟨c, out, h1, h.trans h2⟩

/-- A session after two ratchets, when the sender is about to ask for the third. -/
theorem two_ratchets (P : Prims) (chk : Bool) (root key k1 r1 k2 : Bytes) : ∃ c out,
    c.nextRoot = (Chain.new P (Chain.new P (Chain.new P root key).nextRoot (tsk P k1 (P.pub r1))).nextRoot (tsk P k2 (P.pub r1))).nextRoot ∧
    ∃ rc, rc.nextRoot = (Chain.new P (Chain.new P (Chain.new P root key).nextRoot (tsk P r1 (P.pub k1))).nextRoot (tsk P r1 (P.pub k2))).nextRoot ∧
    Runs P chk (Pair.new P root key) {
      S := { chain := c, state := .active 1 0 k2 (P.pub r1), index := 20001, id := 2 }
      R := { chain := rc, state := .active 1 0 r1 (P.pub k2), index := 0, id := 2 }
      sent := [.forward 0 (some (P.pub k1)) true, .forward 1 (some (P.pub k2)) false]
      answers := [(.forward 0 (some (P.pub k1)) true, .reverse 0 (some (P.pub r1))), (.forward 1 (some (P.pub k2)) false, .reverse 0 none)]
      outS := out } := by
  obtain ⟨c1, o1, e1, h1⟩ := takes P chk 20001 (Pair.new P root key) rfl (by decide)
  have h1a := h1.step (.request k1) (r := _) (by
    simp only [Pair.step, TagSet.tryGenerate, if_neg (show ¬ 20001 ≤ ratchetThreshold by decide), Pair.new, TagSet.new]; rfl)
  have h1b := h1a.step (.deliver 0 r1) (r := _) (by
    simp only [Pair.step, Option.toList_some, List.nil_append, List.getElem?_cons_zero, TagSet.handle, List.map_cons, List.map_nil]; rfl)
  have h1c := h1b.step (.answer 0 []) (r := _) (by
    simp only [Pair.step, List.getElem?_cons_zero, TagSet.handle]; rfl)
  obtain ⟨c2, o2, e2, h2⟩ := h1c.takes 20001 rfl (by decide)
  have h2a := h2.step (.request k2) (r := _) (by
    simp only [Pair.step, TagSet.tryGenerate, if_neg (show ¬ 20001 ≤ ratchetThreshold by decide), TagSet.reinit]; rfl)
  have h2b := h2a.step (.deliver 1 []) (r := _) (by
    simp only [Pair.step, Option.toList_some, List.cons_append, List.nil_append, List.getElem?_cons_zero, List.getElem?_cons_succ, TagSet.handle,
      List.map_cons, List.map_nil]; rfl)
  have h2c := h2b.step (.answer 1 []) (r := _) (by
    simp only [Pair.step, List.getElem?_cons_zero, List.getElem?_cons_succ, TagSet.handle]; rfl)
  obtain ⟨c3, o3, e3, h3⟩ := h2c.takes 20001 rfl (by decide)
  refine ⟨c3, o3, ?_, _, ?_, h3⟩
  · rw [e3]
    simp only [TagSet.reinit, e2, e1, tsk]; rfl
  · rfl

/-- C56 does not hold for every schedule: when a copy of the answer to the first request (or anything with a key) arrives while the
sender waits for the answer to the third, the sender takes the old key. Nothing fails and both ends get to the same set id, but the sender's
set comes from the old key of the receiver and the receiver's from the new one. -/
theorem C56_stale_violated (P : Prims) (chk : Bool) (root key k1 r1 k2 r3 : Bytes) : ∃ p, Runs P chk (Pair.new P root key) p ∧
    p.S.id = 3 ∧ p.R.id = 3 ∧ ¬ Waiting p.S ∧ p.S.index = 0 ∧ p.R.index = 0 ∧
    (∃ s r, p.S.state = .active s r k2 (P.pub r1) ∧ p.R.state = .active s r r3 (P.pub k2)) ∧
    let root' := (Chain.new P (Chain.new P (Chain.new P root key).nextRoot (tsk P k1 (P.pub r1))).nextRoot (tsk P k2 (P.pub r1))).nextRoot
    p.S.chain = Chain.new P root' (tsk P k2 (P.pub r1)) ∧
      ((∀ a b, P.dh a (P.pub b) = P.dh b (P.pub a)) → p.R.chain = Chain.new P root' (tsk P k2 (P.pub r3))) := by
  obtain ⟨c, out, hc, rc, hrc, h⟩ := two_ratchets P chk root key k1 r1 k2
  have ha := h.step (.request []) (r := _) (by
    simp only [Pair.step, TagSet.tryGenerate, if_neg (show ¬ 20001 ≤ ratchetThreshold by decide)]; rfl)
  have hb := ha.step (.answer 0 []) (r := _) (by
    simp only [Pair.step, List.getElem?_cons_zero, TagSet.handle]; rfl)
  have hd := hb.step (.deliver 2 r3) (r := _) (by
    simp only [Pair.step, Option.toList_some, List.cons_append, List.nil_append, List.getElem?_cons_zero, List.getElem?_cons_succ, TagSet.handle]; rfl)
  refine ⟨_, hd, rfl, rfl, by simp [Waiting, TagSet.reinit], rfl, rfl, ⟨1, 1, rfl, rfl⟩, ?_, fun hdh => ?_⟩
  · rw [← hc]; rfl
  · simp only [TagSet.reinit, hrc, tsk, hdh r3 k2, hdh k1 r1, hdh k2 r1]

/-- Sample primitives with a digest that depends on all of its input. -/
def samplePrims : Prims := { TBuild.toyQ with hmac := fun k d => [(k ++ d).foldl (fun a b => a * 3 + b) 7] }

/-- The two ends then make different entries, with the same id and index: shown for the sample primitives. -/
theorem C56_stale_keys_violated (chk : Bool) : ∃ p, Runs samplePrims chk (Pair.new samplePrims [1] [2]) p ∧ ¬ Waiting p.S ∧
    ∃ e e', (p.S.next samplePrims).1 = some e ∧ (p.R.next samplePrims).1 = some e' ∧ e.setId = e'.setId ∧ e.index = e'.index ∧
      e.key ≠ e'.key ∧ e.tag ≠ e'.tag := by
  obtain ⟨p, h, h1, h2, h3, h4, h5, _, h6, h7⟩ := C56_stale_violated samplePrims chk [1] [2] [3] [4] [5] [6]
  have h7 := h7 (fun a b => by simp [samplePrims, TBuild.toyQ, UInt8.add_comm])
  have first : ∀ t : TagSet, t.index = 0 → (t.next samplePrims).1 =
      some { key := (t.chain.step samplePrims).1.1, tag := (t.chain.step samplePrims).1.2, index := 0, setId := t.id } := by
    intro t ht
    simp only [TagSet.next, ht, if_pos (show 0 + 1 < 2 ^ 16 by decide)]
  refine ⟨p, h, h3, _, _, first p.S h4, first p.R h5, h1.trans h2.symm, rfl, ?_, ?_⟩
  · simp only [h6, h7]
    decide +kernel
  · simp only [h6, h7]
    decide +kernel

/-- And a copy of the answer without a key makes a debug build panic and otherwise leaves the sender without a usable set: it fails from
then on, whenever it would ratchet. -/
theorem C56_duplicate_violated (P : Prims) (chk : Bool) (root key k1 r1 k2 : Bytes) : ∃ p, Runs P chk (Pair.new P root key) p ∧ Waiting p.S ∧
    p.step P chk (.answer 1 []) = invalid chk ∧
    ∀ sk kind, ((p.S.handle P chk sk (.reverse 0 none)).2.handle P chk sk kind).1 = invalid chk ∧
      ((p.S.handle P chk sk (.reverse 0 none)).2.tryGenerate P chk sk).1 = invalid chk := by
  obtain ⟨c, out, hc, rc, hrc, h⟩ := two_ratchets P chk root key k1 r1 k2
  have ha := h.step (.request []) (r := _) (by
    simp only [Pair.step, TagSet.tryGenerate, if_neg (show ¬ 20001 ≤ ratchetThreshold by decide)]; rfl)
  refine ⟨_, ha, by simp [Waiting], ?_, fun sk kind => ⟨?_, ?_⟩⟩
  · simp only [Pair.step, List.getElem?_cons_zero, List.getElem?_cons_succ, TagSet.handle, invalid]
    cases chk <;> rfl
  · simp only [TagSet.handle]
  · simp only [TagSet.handle, TagSet.tryGenerate, ratchetThreshold]
    rfl

/-- A set that has not sent a request fails as well when an answer arrives: the other end can make a debug build panic at any time. -/
theorem C56_unasked_violated (P : Prims) (chk : Bool) (root key sk : Bytes) (k : Nat) (pk : Option Bytes) :
    ((TagSet.new P root key).handle P chk sk (.reverse k pk)).1 = invalid chk := rfl

/-! ### Sample cases -/

/-- A ratchet that is carried out: 20001 messages, a request, its delivery (twice) and the answer. -/
example : ∃ p, Reaches samplePrims true (Pair.new samplePrims [1] [2]) p ∧ p.S.id = 1 ∧ p.R.id = 1 ∧ p.outS.length = 20001 := by
  have key : ∀ n, n ≤ 65535 → ∃ q, Reaches samplePrims true (Pair.new samplePrims [1] [2]) q ∧ q.S.index = n ∧ q.S.id = 0 ∧ ¬ Waiting q.S ∧
      q.outS.length = n ∧ q.S.state = .uninit ∧ q.answers = [] := by
    intro n
    induction n with
    | zero => exact fun _ => ⟨_, .refl _, rfl, rfl, by simp [Waiting, Pair.new, TagSet.new], rfl, rfl, rfl⟩
    | succ n ih =>
      intro hn
      obtain ⟨q, h1, h2, h3, h4, h5, h6, h7⟩ := ih (by omega)
      have hx : q.S.index + 1 < 2 ^ 16 := by omega
      have e : (q.S.next samplePrims).2.index = n + 1 ∧ (q.S.next samplePrims).1.toList.length = 1 := by
        rw [h2] at hx
        simp only [TagSet.next, h2, if_pos hx, Option.toList_some, List.length_singleton, and_self]
      obtain ⟨n1, n2, _⟩ := next_spec samplePrims q.S
      refine ⟨_, .step .takeS h1 trivial rfl, e.1, n2.trans h3, (waiting_congr n1).not.mpr h4, ?_, n1.trans h6, h7⟩
      simp only [List.length_append, h5, e.2]
  obtain ⟨q, h1, h2, h3, h4, h5, h6, h7⟩ := key 20001 (by decide)
  have hdh : ∀ a b, samplePrims.dh a (samplePrims.pub b) = samplePrims.dh b (samplePrims.pub a) := fun a b => by
    simp [samplePrims, TBuild.toyQ, UInt8.add_comm]
  obtain ⟨p1, p2, p3, s1, s2, s3, i1, i2⟩ := C56_advances_partial hdh h1 h4 (by rw [h2]; decide) (by omega) [3] [4]
  have r2 := (h1.step (.request [3]) trivial s1).step (.deliver q.sent.length [4]) trivial s2
  have hout : p3.outS.length = 20001 := by
    have a1 : p1.outS = q.outS := by
      simp only [Pair.step] at s1; split at s1 <;> simp at s1; rw [← s1]
    have a2 : p2.outS = p1.outS := by
      simp only [Pair.step] at s2; split at s2
      · injection s2 with s2; rw [s2]
      · split at s2 <;> simp at s2; rw [← s2]
    have a3 : p3.outS = p2.outS := by
      simp only [Pair.step] at s3; split at s3
      · injection s3 with s3; rw [s3]
      · split at s3 <;> simp at s3; rw [← s3]
    rw [a3, a2, a1, h5]
  refine ⟨p3, r2.step _ ?_ s3, by omega, by omega, hout⟩
  have e1 : p1.sent.getLast? = some (.forward 0 (some (samplePrims.pub [3])) true) ∧ p1.answers = [] ∧
      p1.sent[q.sent.length]? = some (.forward 0 (some (samplePrims.pub [3])) true) := by
    simp only [Pair.step, TagSet.tryGenerate, h6, h2, if_neg (show ¬ 20001 ≤ ratchetThreshold by decide)] at s1
    injection s1 with s1
    rw [← s1]
    simp [h7]
  intro _ a ha
  simp only [Pair.step, e1.2.2] at s2
  split at s2 <;> simp at s2
  rw [← s2] at ha ⊢
  simp only [e1.2.1, h7, List.length_nil, List.nil_append] at ha ⊢
  rw [e1.1]
  rename_i v _ _
  cases v with
  | none => simp at ha
  | some v => simp at ha; rw [← ha]

/-- Histories of one set: entries from two sets. -/
example : ((TagSet.new samplePrims [1] [2]).ops samplePrims true [.next, .next, .handle [3] (.forward 0 (some [4]) true), .next]).1.map
    (fun e => (e.setId, e.index)) = [(0, 0), (0, 1), (1, 0)] := by decide +kernel

end Emissary.Ratchet
