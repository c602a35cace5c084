import Verif.Lemmas.Netdb
import Mathlib.Data.List.Induction
/-!
# Kademlia tables: properties C40, C41, C42, C90

Router ids and lookup keys are the 32-byte strings they are in the protocol; `len32` hypotheses say no more than that.
-/
namespace Emissary.Netdb
open Emissary

/-! ## C40 -/

/-- C40: distance does not depend on the direction. -/
theorem C40_symmetric (a b : Bytes) : distance a b = distance b a := distance_comm a b

/-- C40: only a key itself is at distance zero. -/
theorem C40_zero_iff_equal {a b : Bytes} (ha : a.length = 32) (hb : b.length = 32) : distance a b = 0 ↔ a = b :=
  distance_eq_zero (ha.trans hb.symm)

/-- C40: triangle inequality. -/
theorem C40_triangle (a b c : Bytes) : distance a c ≤ distance a b + distance b c := by
  have : distance a c = distance a b ^^^ distance b c := by
    unfold distance
    rw [Nat.xor_assoc, xor_cancel]
  rw [this]
  exact xor_le_add _ _

/-- C40: for every key and every distance there is exactly one key at that distance, so ranking by distance has no ties. -/
theorem C40_unidirectional {a : Bytes} (ha : a.length = 32) {d : Nat} (hd : d < 2 ^ 256) :
    ∃ b : Bytes, (b.length = 32 ∧ distance a b = d) ∧ ∀ c : Bytes, c.length = 32 → distance a c = d → c = b := by
  have hx : unbe a ^^^ d < 2 ^ 256 := Nat.xor_lt_two_pow (unbe_lt32 ha) hd
  have hb : distance a (be 32 (unbe a ^^^ d)) = d := by
    unfold distance
    rw [unbe_be, Nat.mod_eq_of_lt (show _ < 256 ^ 32 from hx), xor_cancel]
  refine ⟨be 32 (unbe a ^^^ d), ⟨by simp, hb⟩, fun c hc e => ?_⟩
  exact distance_inj (t := a) (by rw [hc]; simp) (e.trans hb.symm)

/-- The byte strings are compared as big-endian numbers: the first differing byte decides. -/
theorem C40_first_byte_decides {t a b : UInt8} {ts as bs : Bytes} (h1 : as.length = ts.length) (h2 : bs.length = ts.length)
    (h : (t ^^^ a) < (t ^^^ b)) : distance (t :: ts) (a :: as) < distance (t :: ts) (b :: bs) := by
  have key : ∀ (x y : UInt8) (xs ys : Bytes), xs.length = ys.length →
      distance (x :: xs) (y :: ys) = (x ^^^ y).toNat * 256 ^ xs.length + distance xs ys := by
    intro x y xs ys hl
    unfold distance
    simp only [unbe]
    rw [← hl]
    have hxs := unbe_lt xs
    have hys := unbe_lt ys
    rw [← hl] at hys
    have e : 256 ^ xs.length = 2 ^ (8 * xs.length) := by rw [show (256 : Nat) = 2 ^ 8 by rfl, ← Nat.pow_mul]
    rw [e] at hxs hys ⊢
    generalize 8 * xs.length = n at *
    have hz : unbe xs ^^^ unbe ys < 2 ^ n := Nat.xor_lt_two_pow hxs hys
    apply Nat.eq_of_testBit_eq
    intro i
    rw [Nat.testBit_xor, Nat.mul_comm, Nat.mul_comm y.toNat, Nat.mul_comm (x ^^^ y).toNat,
      Nat.testBit_two_pow_mul_add _ hxs, Nat.testBit_two_pow_mul_add _ hys, Nat.testBit_two_pow_mul_add _ hz,
      UInt8.toNat_xor]
    split <;> simp
  rw [key t a ts as h1.symm, key t b ts bs h2.symm]
  have hlt : (t ^^^ a).toNat < (t ^^^ b).toNat := h
  have h3 : distance ts as < 256 ^ ts.length := by
    have hx := unbe_lt ts
    have hy := unbe_lt as
    rw [h1] at hy
    have e : 256 ^ ts.length = 2 ^ (8 * ts.length) := by rw [show (256 : Nat) = 2 ^ 8 by rfl, ← Nat.pow_mul]
    rw [e] at hx hy ⊢
    exact Nat.xor_lt_two_pow hx hy
  have h4 : ((t ^^^ a).toNat + 1) * 256 ^ ts.length ≤ (t ^^^ b).toNat * 256 ^ ts.length :=
    Nat.mul_le_mul_right _ hlt
  rw [Nat.add_mul] at h4
  omega

example : ∃ a b : Bytes, a.length = 32 ∧ b.length = 32 ∧ distance a b = 2 ^ 255 + 3 :=
  ⟨List.replicate 32 0, 128 :: List.replicate 30 0 ++ [3], by decide, by decide, by decide +kernel⟩

/-! ## C41 -/

/-- The routers the table knows. -/
def Table.knows (t : Table) (r : Bytes) : Prop := ∃ i, ∃ f ∈ t.buckets i, f.key = r

theorem Table.knows_bucket {t : Table} (h : t.Inv) {r : Bytes} {i : Nat} {f : FloodFill} (hf : f ∈ t.buckets i) (e : f.key = r) :
    ilog2 (distance t.localKey r) = some i := by
  have ⟨_, h2⟩ := h.filed i f hf
  rw [e] at h2
  have hne : distance t.localKey r ≠ 0 := by have := Nat.two_pow_pos i; omega
  unfold ilog2
  rw [if_neg hne]
  exact congrArg some ((Nat.log2_eq_iff hne).mpr h2)

/-- Members after adding `id`. -/
theorem mem_addRouter {t : Table} (h : t.Inv) {id r : Bytes} (hr : (t.addRouter id).knows r) : t.knows r ∨ r = id := by
  obtain ⟨i, f, hf, e⟩ := hr
  unfold Table.addRouter at hf
  split at hf
  · next j hj =>
    simp only [Table.set] at hf
    split at hf
    · have ⟨_, _, c⟩ := tryInsert_inv (k := id) (h.len j) (h.nodup j)
      rcases c f hf with hf | rfl
      · exact .inl ⟨j, f, hf, e⟩
      · exact .inr e.symm
    · exact .inl ⟨i, f, hf, e⟩
  · exact .inl ⟨i, f, hf, e⟩

theorem mem_adjustScore {t : Table} {id r : Bytes} {a : Int} : (t.adjustScore id a).knows r ↔ t.knows r := by
  have hm : ∀ b : KBucket, (∃ f ∈ KBucket.adjustScore id a b, f.key = r) ↔ ∃ f ∈ b, f.key = r := by
    intro b
    have := adjustScore_keys id a b
    constructor
    · rintro ⟨f, hf, e⟩
      have := this ▸ List.mem_map_of_mem (f := FloodFill.key) hf
      obtain ⟨g, hg, e'⟩ := List.mem_map.mp this
      exact ⟨g, hg, e'.trans e⟩
    · rintro ⟨f, hf, e⟩
      have := this.symm ▸ List.mem_map_of_mem (f := FloodFill.key) hf
      obtain ⟨g, hg, e'⟩ := List.mem_map.mp this
      exact ⟨g, hg, e'.trans e⟩
  unfold Table.adjustScore
  split
  · next j hj =>
    constructor
    · rintro ⟨i, hf⟩
      simp only [Table.set] at hf
      split at hf
      · exact ⟨j, (hm _).mp hf⟩
      · exact ⟨i, hf⟩
    · rintro ⟨i, hf⟩
      refine ⟨i, ?_⟩
      simp only [Table.set]
      split
      · next e => rw [hm]; rw [← e]; exact hf
      · exact hf
  · exact Iff.rfl

/-- C41: whatever is done with the table, every bucket holds at most 20 routers and no router twice; no router is in two
buckets; the local router is in none; and only routers that were added are in the table. -/
theorem C41_buckets_bounded_and_distinct {l : Bytes} (hl : l.length = 32) {ops : List DhtOp} (ho : ∀ o ∈ ops, o.id.length = 32) :
    let t := (Table.new l).run ops
    (∀ i, (t.buckets i).length ≤ 20) ∧
    (∀ i, ((t.buckets i).map (·.key)).Nodup) ∧
    (∀ i j f g, f ∈ t.buckets i → g ∈ t.buckets j → f.key = g.key → i = j) ∧
    (∀ i, ∀ f ∈ t.buckets i, f.key ≠ l ∧ DhtOp.add f.key ∈ ops ∧ i < 256) := by
  intro t
  have hi : t.Inv := Table.inv_run (Table.inv_new l) ho
  have hloc : t.localKey = l := Table.run_local _ _
  have hadd : ∀ r, t.knows r → DhtOp.add r ∈ ops := by
    have gen : ∀ (ops : List DhtOp) (t : Table), t.Inv → (∀ o ∈ ops, o.id.length = 32) → ∀ r, (t.run ops).knows r →
        t.knows r ∨ DhtOp.add r ∈ ops := by
      intro ops
      induction ops with
      | nil => intro t _ _ r hr; exact .inl hr
      | cons o ops ih =>
        intro t ht ho r hr
        rcases ih (t.step o) (Table.inv_step ht (ho o (by simp))) (fun x hx => ho x (by simp [hx])) r hr with h | h
        · cases o with
          | add id =>
            rcases mem_addRouter ht h with h | rfl
            · exact .inl h
            · exact .inr (by simp)
          | success id => exact .inl (mem_adjustScore.mp h)
          | failure id => exact .inl (mem_adjustScore.mp h)
          | timeout id => exact .inl (mem_adjustScore.mp h)
        · exact .inr (by simp [h])
    intro r hr
    rcases gen ops (Table.new l) (Table.inv_new l) ho r hr with ⟨i, f, hf, _⟩ | h
    · simp [Table.new] at hf
    · exact h
  refine ⟨hi.len, hi.nodup, ?_, ?_⟩
  · intro i j f g hf hg e
    have h1 := Table.knows_bucket hi hf e
    have h2 := Table.knows_bucket hi hg rfl
    exact Option.some.inj (h1.symm.trans h2)
  · intro i f hf
    have ⟨h1, h2, h3⟩ := hi.filed i f hf
    rw [hloc] at h2 h3
    refine ⟨?_, hadd _ ⟨i, f, hf, rfl⟩, ?_⟩
    · rintro e
      rw [e, (distance_eq_zero (a := l) (b := l) rfl).mpr rfl] at h2
      have := Nat.two_pow_pos i
      omega
    · apply Classical.byContradiction
      intro hc
      have := Nat.pow_le_pow_right (n := 2) (by omega) (Nat.le_of_not_lt hc)
      have := distance_lt hl h1
      omega

/-- C41: inserting into a bucket. `true` is returned exactly when the router is in the bucket afterwards. A router is thrown
out only to make room in a full bucket, only one, and only one with a negative score that is the lowest of the bucket. -/
theorem C41_eviction (b : KBucket) (k : Bytes) :
    ((b.tryInsert k).2 = true ↔ k ∈ (b.tryInsert k).1.map (·.key)) ∧
    (∀ f ∈ b, f ∉ (b.tryInsert k).1 →
      20 ≤ b.length ∧ f.score < 0 ∧ (∀ g ∈ b, f.score ≤ g.score) ∧ ∀ g ∈ b, g ∉ (b.tryInsert k).1 → g = f) ∧
    ((b.tryInsert k).2 = false → (b.tryInsert k).1 = b ∧ 20 ≤ b.length ∧ ∀ f ∈ b, 0 ≤ f.score) := by
  rcases tryInsert_cases b k with ⟨⟨f, hf, e1⟩, e⟩ | ⟨a, l, e⟩ | ⟨a, l, u, f, v, e1, hneg, hmin, e⟩ | ⟨a, l, hs, e⟩
  · rw [e]
    refine ⟨⟨fun _ => List.mem_map.mpr ⟨f, hf, e1⟩, fun _ => rfl⟩, fun f hf hc => absurd hf hc, fun h => (by simp at h)⟩
  · rw [e]
    exact ⟨by simp, fun f hf hc => absurd (List.mem_append_left _ hf) hc, fun h => (by simp at h)⟩
  · rw [e]
    have hgone : ∀ g ∈ b, g ∉ u ++ { key := k, score := 0 } :: v → g = f := by
      intro g hg hc
      rw [e1] at hg
      simp only [List.mem_append, List.mem_cons, not_or] at hg hc
      rcases hg with h | h | h
      · exact absurd h hc.1
      · exact h
      · exact absurd h hc.2.2
    refine ⟨by simp, fun g hg hc => ?_, fun h => (by simp at h)⟩
    have := hgone g hg hc
    subst this
    exact ⟨l, hneg, hmin, hgone⟩
  · rw [e]
    refine ⟨⟨fun h => (by simp at h), fun h => ?_⟩, fun f hf hc => absurd hf hc, fun _ => ⟨rfl, l, hs⟩⟩
    obtain ⟨g, hg, e⟩ := List.mem_map.mp h
    exact absurd e (a g hg)

/-- C41: a router that is in the table with a score of at least zero and never lets a lookup time out stays there, whatever
happens to the others. -/
theorem C41_responsive_router_stays {t : Table} (hi : t.Inv) {r : Bytes}
    (hr : ∃ i, ∃ f ∈ t.buckets i, f.key = r ∧ 0 ≤ f.score) {ops : List DhtOp} (ho : ∀ o ∈ ops, o.id.length = 32)
    (hn : DhtOp.timeout r ∉ ops) : ∃ i, ∃ f ∈ (t.run ops).buckets i, f.key = r ∧ 0 ≤ f.score := by
  induction ops generalizing t with
  | nil => exact hr
  | cons o ops ih =>
    refine ih (Table.inv_step hi (ho o (by simp))) ?_ (fun x hx => ho x (by simp [hx])) (fun h => hn (by simp [h]))
    obtain ⟨i, f, hf, e, hs⟩ := hr
    have adj : ∀ (id : Bytes) (a : Int), (id = r → 0 ≤ a) →
        ∃ i, ∃ f ∈ (t.adjustScore id a).buckets i, f.key = r ∧ 0 ≤ f.score := by
      intro id a ha
      unfold Table.adjustScore
      split
      · next j hj =>
        by_cases hij : i = j
        · subst hij
          rcases adjustScore_of_mem (k := id) (a := a) hf with h | ⟨h1, h2⟩
          · exact ⟨i, f, by simpa [Table.set] using h, e, hs⟩
          · refine ⟨i, { f with score := f.score + a }, by simpa [Table.set] using h2, e, ?_⟩
            have := ha (h1.symm.trans e)
            show 0 ≤ f.score + a
            omega
        · exact ⟨i, f, by simpa [Table.set, hij] using hf, e, hs⟩
      · exact ⟨i, f, hf, e, hs⟩
    cases o with
    | add id =>
      show ∃ i, ∃ f ∈ (t.addRouter id).buckets i, _
      unfold Table.addRouter
      split
      · next j hj =>
        by_cases hij : i = j
        · subst hij
          refine ⟨i, f, ?_, e, hs⟩
          simp only [Table.set, if_pos]
          apply Classical.byContradiction
          intro hc
          have := ((C41_eviction (t.buckets i) id).2.1 f hf hc).2.1
          omega
        · exact ⟨i, f, by simpa [Table.set, hij] using hf, e, hs⟩
      · exact ⟨i, f, hf, e, hs⟩
    | success id => exact adj id 10 (fun _ => by decide)
    | failure id => exact adj id 1 (fun _ => by decide)
    | timeout id => exact adj id (-5) (fun h => by subst h; simp at hn)

/-- Id number `n` of the examples. -/
def exId (n : Nat) : Bytes := List.replicate 31 0 ++ [UInt8.ofNat n]

-- the local router is 0, routers 32..51 fill bucket 5, one of them stops answering and is replaced by 52
example :
    let ops := (List.range' 32 20).map (fun n => DhtOp.add (exId n)) ++ [.add (exId 60), .timeout (exId 40), .add (exId 52)]
    let t := (Table.new (exId 0)).run ops
    (∀ o ∈ ops, o.id.length = 32) ∧ (t.buckets 5).length = 20 ∧ exId 52 ∈ (t.buckets 5).map (·.key) ∧
    exId 40 ∉ (t.buckets 5).map (·.key) ∧ exId 60 ∉ (t.buckets 5).map (·.key) := by decide +kernel

/-! ## C42 -/

/-- All candidates of a lookup, before the limit. -/
theorem lookup_mem {t : Table} (hi : t.Inv) (hl : t.localKey.length = 32) {target r : Bytes} (ht : target.length = 32) :
    r ∈ ((visited (distance t.localKey target)).flatMap fun i => (t.buckets i).closestIter target) ↔ t.knows r := by
  rw [List.mem_flatMap]
  constructor
  · rintro ⟨i, _, h⟩
    exact ⟨i, mem_closestIter.mp h⟩
  · rintro ⟨i, f, hf, e⟩
    have ⟨h1, h2, h3⟩ := hi.filed i f hf
    refine ⟨i, mem_visited (distance_lt hl ht) ?_, mem_closestIter.mpr ⟨f, hf, e⟩⟩
    apply Classical.byContradiction
    intro hc
    have := Nat.pow_le_pow_right (n := 2) (by omega) (Nat.le_of_not_lt hc)
    have := distance_lt hl h1
    omega

theorem lookup_sorted {t : Table} (hi : t.Inv) (hl : t.localKey.length = 32) {target : Bytes} (ht : target.length = 32) :
    ((visited (distance t.localKey target)).flatMap fun i => (t.buckets i).closestIter target).Pairwise
      (fun x y => distance target x ≤ distance target y) := by
  rw [List.pairwise_flatMap]
  refine ⟨fun i _ => closestIter_sorted _ _, ?_⟩
  refine (visited_ordered (distance_lt hl ht)).imp ?_
  intro i j hij x hx y hy
  obtain ⟨f, hf, rfl⟩ := mem_closestIter.mp hx
  obtain ⟨g, hg, rfl⟩ := mem_closestIter.mp hy
  have hf' := (hi.filed i f hf).2
  have hg' := (hi.filed j g hg).2
  rw [distance_via t.localKey, distance_via t.localKey target g.key]
  rcases hij with h | ⟨rfl, rfl⟩
  · exact Nat.le_of_lt (lt_of_before h hf' hg')
  · have h1 : distance t.localKey f.key = 1 := by omega
    have h2 : distance t.localKey g.key = 1 := by omega
    rw [h1, h2]

/-- C42: a lookup returns at most `limit` known routers, none of the ignored ones, in order of distance to the key; and any
known router it leaves out (and was not told to ignore) is at least as far away as everything it returns, and is left out only
because the limit was reached. -/
theorem C42_lookup_returns_nearest_in_order {l target : Bytes} (hl : l.length = 32) (ht : target.length = 32)
    {ops : List DhtOp} (ho : ∀ o ∈ ops, o.id.length = 32) (limit : Nat) (ignore : List Bytes) :
    let t := (Table.new l).run ops
    let res := t.closestWithIgnore target limit ignore
    res.length ≤ limit ∧
    (∀ r ∈ res, t.knows r ∧ r ∉ ignore) ∧
    res.Pairwise (fun a b => distance target a ≤ distance target b) ∧
    (∀ r, t.knows r → r ∉ ignore → r ∉ res → res.length = limit ∧ ∀ x ∈ res, distance target x ≤ distance target r) := by
  intro t res
  have hi : t.Inv := Table.inv_run (Table.inv_new l) ho
  have hloc : t.localKey.length = 32 := by rw [show t.localKey = l from Table.run_local _ _]; exact hl
  have hm := fun r => lookup_mem hi hloc (r := r) ht
  have hs := lookup_sorted hi hloc ht
  have hres : res = (((visited (distance t.localKey target)).flatMap fun i => (t.buckets i).closestIter target).filter
    fun id => !ignore.contains id).take limit := rfl
  generalize (visited (distance t.localKey target)).flatMap (fun i => (t.buckets i).closestIter target) = all at hm hs hres
  have hs' := List.Pairwise.filter (fun id => !ignore.contains id) hs
  have hm' : ∀ r, r ∈ all.filter (fun id => !ignore.contains id) ↔ t.knows r ∧ r ∉ ignore := by
    intro r
    rw [List.mem_filter, hm]
    simp
  generalize all.filter (fun id => !ignore.contains id) = cand at hs' hm' hres
  rw [hres]
  refine ⟨by simp; omega, fun r hr => (hm' r).mp (List.mem_of_mem_take hr), hs'.sublist (List.take_sublist _ _), ?_⟩
  intro r hk hni hnr
  have hin := (hm' r).mpr ⟨hk, hni⟩
  rw [← List.take_append_drop limit cand] at hin hs'
  rcases List.mem_append.mp hin with h | h
  · exact absurd h hnr
  · refine ⟨?_, fun x hx => (List.pairwise_append.mp hs').2.2 x hx r h⟩
    have := List.length_pos_of_mem h
    rw [List.length_drop] at this
    rw [List.length_take]
    omega

/-- C42: a lookup without an ignore list is the lookup with an empty one. -/
theorem C42_closest_is_lookup (t : Table) (target : Bytes) (limit : Nat) :
    t.closest target limit = t.closestWithIgnore target limit [] := by
  unfold Table.closest Table.closestWithIgnore
  congr 1
  exact (List.filter_eq_self.mpr (by simp)).symm

/-- C42, distinctness, what holds: results are distinct unless the lookup visits bucket 0 (the router whose id differs from
the local one in the last bit only) twice, which happens when the key's last bit differs from the local id's or the key equals
the local id. Missing: those keys, see the next theorem. -/
theorem C42_results_distinct_partial {l target : Bytes} (hl : l.length = 32) (ht : target.length = 32)
    {ops : List DhtOp} (ho : ∀ o ∈ ops, o.id.length = 32) (limit : Nat) (ignore : List Bytes)
    (h : (∀ r, distance l r = 1 → DhtOp.add r ∉ ops) ∨ (target ≠ l ∧ distance l target % 2 = 0)) :
    (((Table.new l).run ops).closestWithIgnore target limit ignore).Nodup := by
  have hi : ((Table.new l).run ops).Inv := Table.inv_run (Table.inv_new l) ho
  have hloc : ((Table.new l).run ops).localKey = l := Table.run_local _ _
  have hmem := (C41_buckets_bounded_and_distinct hl ho).2.2.2
  generalize (Table.new l).run ops = t at hi hloc hmem
  refine List.Nodup.sublist (List.take_sublist _ _) (List.Nodup.sublist List.filter_sublist ?_)
  rw [hloc]
  have hd := distance_lt hl ht
  have hinner : ∀ i, ((t.buckets i).closestIter target).Nodup := fun i =>
    (closestIter_perm _ _).nodup_iff.mpr (hi.nodup i)
  have hdisj : ∀ i j x, i ≠ j → x ∈ (t.buckets i).closestIter target → x ∈ (t.buckets j).closestIter target → False := by
    intro i j x hij hx hy
    obtain ⟨f, hf, e1⟩ := mem_closestIter.mp hx
    obtain ⟨g, hg, e2⟩ := mem_closestIter.mp hy
    exact hij (Option.some.inj ((Table.knows_bucket hi hf e1).symm.trans (Table.knows_bucket hi hg e2)))
  rw [List.Nodup, List.pairwise_flatMap]
  refine ⟨fun i _ => hinner i, ?_⟩
  rcases h with h | ⟨h1, h2⟩
  · have h0 : t.buckets 0 = [] := by
      cases hb : t.buckets 0 with
      | nil => rfl
      | cons f b =>
        exfalso
        have hf : f ∈ t.buckets 0 := by rw [hb]; simp
        have ⟨_, h2, h3⟩ := hi.filed 0 f hf
        rw [hloc] at h2 h3
        exact h f.key (by omega) (hmem 0 f hf).2.1
    refine (visited_ordered hd).imp ?_
    intro i j hij x hx y hy e
    subst e
    rcases hij with hij | ⟨rfl, rfl⟩
    · refine hdisj i j x ?_ hx hy
      rintro rfl
      rcases hij with ⟨_, _, h⟩ | ⟨h, h'⟩ | ⟨_, _, h⟩
      · omega
      · rw [h] at h'; cases h'
      · omega
    · rw [h0] at hx
      cases hx
  · have hne : distance l target ≠ 0 := fun e => h1 ((distance_eq_zero (hl.trans ht.symm)).mp e).symm
    have hb : (distance l target).testBit 0 = false := by simp [Nat.testBit_zero, h2]
    refine (visited_nodup hd hne hb).imp ?_
    intro i j hij x hx y hy e
    subst e
    exact hdisj i j x hij hx hy

/-- C42 is violated: whenever the table holds the router next to the local one, every lookup of that router's id (or of the
local id) with a limit of two or more returns it twice in a row. -/
theorem C42_router_returned_twice_violated {l r : Bytes} (hl : l.length = 32) (hr : r.length = 32) (hn : distance l r = 1)
    {ops : List DhtOp} (ho : ∀ o ∈ ops, o.id.length = 32) (hk : ((Table.new l).run ops).knows r)
    {target : Bytes} (ht : target = r ∨ target = l) {limit : Nat} (h2 : 2 ≤ limit) :
    ∃ rest, ((Table.new l).run ops).closest target limit = r :: r :: rest := by
  have hi : ((Table.new l).run ops).Inv := Table.inv_run (Table.inv_new l) ho
  have hloc : ((Table.new l).run ops).localKey = l := Table.run_local _ _
  generalize (Table.new l).run ops = t at *
  have hb : ∃ f, t.buckets 0 = [f] ∧ f.key = r := by
    obtain ⟨i, f, hf, e⟩ := hk
    have hz := Table.knows_bucket hi hf e
    rw [hloc, hn] at hz
    have hi0 : i = 0 := Option.some.inj (hz.symm.trans (by decide))
    subst hi0
    have hall : ∀ g ∈ t.buckets 0, g.key = r := by
      intro g hg
      have ⟨a, b, c⟩ := hi.filed 0 g hg
      rw [hloc] at b c
      exact distance_inj (t := l) (a.trans hr.symm) (by omega)
    have hnd := hi.nodup 0
    cases hbb : t.buckets 0 with
    | nil => rw [hbb] at hf; cases hf
    | cons g u =>
      refine ⟨g, ?_, hall g (by rw [hbb]; simp)⟩
      cases u with
      | nil => rfl
      | cons h v =>
        exfalso
        rw [hbb] at hnd hall
        have e1 := hall g (by simp)
        have e2 := hall h (by simp)
        simp [e1, e2] at hnd
  obtain ⟨f, hb0, hfk⟩ := hb
  have hv : ∃ w, visited (distance l target) = 0 :: 0 :: w := by
    rcases ht with rfl | rfl
    · rw [hn, visited_eq (by decide)]
      exact ⟨ups 1 0, rfl⟩
    · rw [(distance_eq_zero rfl).mpr rfl, visited_eq (by decide)]
      exact ⟨ups 0 0, rfl⟩
  obtain ⟨w, hv⟩ := hv
  unfold Table.closest
  rw [hloc, hv, List.flatMap_cons, List.flatMap_cons, hb0]
  have hs : KBucket.closestIter [f] target = [r] := by subst hfk; rfl
  rw [hs]
  obtain ⟨n, rfl⟩ := Nat.exists_eq_add_of_le h2
  exact ⟨_, by rw [show 2 + n = n + 1 + 1 by omega]; rfl⟩

example : ((Table.new (exId 0)).run [.add (exId 1)]).closest (exId 1) 3 = [exId 1, exId 1] := by decide +kernel

example :
    let t := (Table.new (exId 0)).run [.add (exId 9), .add (exId 4), .add (exId 200), .add (exId 12), .add (exId 5)]
    t.closestWithIgnore (exId 12) 3 [exId 9] = [exId 12, exId 4, exId 5] := by decide +kernel

theorem mem_ins_iff {m : OMap Bytes} {k : Nat} {v : Bytes} {e : Nat × Bytes} (hs : OMap.Sorted m) :
    e ∈ OMap.ins k v m ↔ e = (k, v) ∨ (e ∈ m ∧ e.1 ≠ k) := by
  have hs' := OMap.sorted_ins (k := k) (v := v) hs
  constructor
  · intro h
    have h1 := OMap.get?_of_mem hs' (k := e.1) (v := e.2) h
    rw [OMap.get?_ins] at h1
    by_cases hk : e.1 = k
    · left
      rw [if_pos hk] at h1
      exact Prod.ext hk (Option.some.inj h1).symm
    · right
      rw [if_neg hk] at h1
      exact ⟨OMap.mem_of_get? h1, hk⟩
  · rintro (rfl | ⟨h, hk⟩)
    · apply OMap.mem_of_get?
      rw [OMap.get?_ins, if_pos rfl]
    · apply OMap.mem_of_get? (k := e.1) (v := e.2)
      rw [OMap.get?_ins, if_neg hk]
      exact OMap.get?_of_mem hs h

theorem byDistance_spec {target : Bytes} {routers : List Bytes} (hr : ∀ r ∈ routers, r.length = 32) :
    OMap.Sorted (byDistance target routers) ∧ ∀ e, e ∈ byDistance target routers ↔ e.2 ∈ routers ∧ e.1 = distance target e.2 := by
  unfold byDistance
  have gen : ∀ (rs done : List Bytes) (m : OMap Bytes), (∀ r ∈ done ++ rs, r.length = 32) → OMap.Sorted m →
      (∀ e, e ∈ m ↔ e.2 ∈ done ∧ e.1 = distance target e.2) →
      OMap.Sorted (rs.foldl (fun m r => OMap.ins (distance target r) r m) m) ∧
      ∀ e, e ∈ rs.foldl (fun m r => OMap.ins (distance target r) r m) m ↔ e.2 ∈ done ++ rs ∧ e.1 = distance target e.2 := by
    intro rs
    induction rs with
    | nil => intro done m _ hs hm; rw [List.append_nil]; exact ⟨hs, hm⟩
    | cons r rs ih =>
      intro done m hl hs hm
      have := ih (done ++ [r]) (OMap.ins (distance target r) r m) (by simpa using hl) (OMap.sorted_ins hs) ?_
      · simpa using this
      · intro e
        rw [mem_ins_iff hs, hm]
        constructor
        · rintro (rfl | ⟨⟨a, b⟩, _⟩)
          · simp
          · exact ⟨by simp [a], b⟩
        · rintro ⟨a, b⟩
          rcases List.mem_append.mp a with a | a
          · by_cases hk : e.1 = distance target r
            · left
              have : e.2 = r := distance_inj (t := target)
                ((hl _ (by simp [a])).trans (hl r (by simp)).symm) (b.symm.trans hk)
              exact Prod.ext hk this
            · exact .inr ⟨⟨a, b⟩, hk⟩
          · left
            have : e.2 = r := by simpa using a
            exact Prod.ext (by rw [b, this]) this
  have := gen routers [] [] (by simpa using hr) List.Pairwise.nil (by simp)
  simpa using this

/-- C42: of a set of routers, `get_closest` returns one none is closer than; it returns nothing only for the empty set. -/
theorem C42_get_closest (target : Bytes) {routers : List Bytes} (hr : ∀ r ∈ routers, r.length = 32) :
    match getClosest target routers with
    | some r => r ∈ routers ∧ ∀ s ∈ routers, distance target r ≤ distance target s
    | none => routers = [] := by
  have ⟨hs, hm⟩ := byDistance_spec (target := target) hr
  unfold getClosest
  by_cases he : routers.isEmpty = true
  · rw [if_pos he]; simpa using he
  · rw [if_neg he]
    cases hb : byDistance target routers with
    | nil =>
      exfalso
      cases routers with
      | nil => simp at he
      | cons r rs =>
        have := (hm (distance target r, r)).mpr ⟨by simp, rfl⟩
        rw [hb] at this
        cases this
    | cons e m =>
      rw [hb] at hs hm
      have ⟨h1, h2⟩ := (hm e).mp (by simp)
      simp only [List.head?_cons, Option.map_some]
      refine ⟨h1, fun s hsr => ?_⟩
      have := (hm (distance target s, s)).mpr ⟨hsr, rfl⟩
      rcases List.mem_cons.mp this with h | h
      · rw [← h]
      · have := (List.pairwise_cons.mp hs).1 _ h
        rw [← h2]
        exact Nat.le_of_lt this

/-- C42: `get_n_closest` returns that many distinct routers of the set (all of them if there are fewer), and none left out is
closer than one returned. -/
theorem C42_get_n_closest (target : Bytes) {routers : List Bytes} (hr : ∀ r ∈ routers, r.length = 32) (hn : routers.Nodup)
    (limit : Nat) :
    let res := getNClosest target routers limit
    res.Nodup ∧ res.length = min limit routers.length ∧ (∀ r ∈ res, r ∈ routers) ∧
    ∀ r ∈ res, ∀ s ∈ routers, s ∉ res → distance target r < distance target s := by
  intro res
  have ⟨hs, hm⟩ := byDistance_spec (target := target) hr
  have hres : res = ((byDistance target routers).take limit).map (·.2) := by
    show getNClosest target routers limit = _
    unfold getNClosest
    by_cases he : routers.isEmpty = true
    · rw [if_pos he]
      have : routers = [] := by simpa using he
      subst this
      simp [byDistance]
    · rw [if_neg he]
  have hnd : ((byDistance target routers).map (·.2)).Nodup := by
    rw [List.Nodup, List.pairwise_map]
    refine List.Pairwise.imp_of_mem ?_ hs
    intro a b ha hb hab e
    have h1 := ((hm a).mp ha).2
    have h2 := ((hm b).mp hb).2
    rw [e] at h1
    omega
  have hmem : ∀ r, r ∈ (byDistance target routers).map (·.2) ↔ r ∈ routers := by
    intro r
    rw [List.mem_map]
    constructor
    · rintro ⟨e, he, rfl⟩; exact ((hm e).mp he).1
    · intro h; exact ⟨(distance target r, r), (hm _).mpr ⟨h, rfl⟩, rfl⟩
  have hlen : (byDistance target routers).length = routers.length := by
    have := ((List.perm_ext_iff_of_nodup hnd hn).mpr hmem).length_eq
    simpa using this
  rw [hres]
  refine ⟨?_, by simp [hlen], ?_, ?_⟩
  · rw [List.map_take]; exact hnd.sublist (List.take_sublist _ _)
  · intro r h
    rw [List.map_take] at h
    exact (hmem r).mp (List.mem_of_mem_take h)
  · intro r hrr s hsr hsn
    obtain ⟨e, he, rfl⟩ := List.mem_map.mp hrr
    have hin := (hm (distance target s, s)).mpr ⟨hsr, rfl⟩
    have he' := ((hm e).mp (List.mem_of_mem_take he)).2
    rw [← List.take_append_drop limit (byDistance target routers)] at hin hs
    rcases List.mem_append.mp hin with h | h
    · exact absurd (List.mem_map.mpr ⟨_, h, rfl⟩) hsn
    · have := (List.pairwise_append.mp hs).2.2 _ he _ h
      rw [← he']
      exact this

example : getNClosest (exId 12) [exId 3, exId 9, exId 13, exId 4] 2 = [exId 13, exId 9] := by decide +kernel

/-! ## C90 -/

theorem foldl_add_inv {l : Bytes} (rs : List (Bytes × Int)) (hr : ∀ r ∈ rs, r.1.length = 32)
    (hs : rs.Pairwise (fun a b => b.2 ≤ a.2)) :
    let t := rs.foldl (fun t r => t.addRouter r.1) (Table.new l)
    t.Inv ∧ t.localKey = l ∧ (∀ i, ∀ f ∈ t.buckets i, f.score = 0 ∧ ∃ r ∈ rs, r.1 = f.key) ∧
    (∀ r ∈ rs, r.1 ≠ l → l.length = 32 → (∃ i, ∃ f ∈ t.buckets i, f.key = r.1) ∨
      ∃ i, (2 ^ i ≤ distance l r.1 ∧ distance l r.1 < 2 ^ (i + 1)) ∧ (t.buckets i).length = 20 ∧
        ∀ f ∈ t.buckets i, ∃ q ∈ rs, q.1 = f.key ∧ r.2 ≤ q.2) := by
  induction rs using List.reverseRecOn with
  | nil => exact ⟨Table.inv_new l, rfl, by simp [Table.new], by simp⟩
  | append_singleton rs r ih =>
    have ⟨hs1, _, hs3⟩ := List.pairwise_append.mp hs
    obtain ⟨hi, hl, h0, hk⟩ := ih (fun x hx => hr x (by simp [hx])) hs1
    rw [List.foldl_append, List.foldl_cons, List.foldl_nil]
    generalize rs.foldl (fun t r => t.addRouter r.1) (Table.new l) = t at *
    intro t'
    have ht' : t' = t.addRouter r.1 := rfl
    have hi' : t'.Inv := Table.inv_add hi (hr r (by simp))
    -- the effect on each bucket
    have heff : ∀ i, (t'.buckets i = t.buckets i) ∨ (t'.buckets i = t.buckets i ++ [{ key := r.1 }] ∧ (t.buckets i).length < 20) := by
      intro i
      rw [ht']
      unfold Table.addRouter
      split
      · next j hj =>
        simp only [Table.set]
        split
        · next e =>
          subst e
          rcases tryInsert_cases (t.buckets i) r.1 with ⟨_, e⟩ | ⟨_, l, e⟩ | ⟨_, _, u, f, v, e1, hneg, _, _⟩ | ⟨_, _, _, e⟩
          · rw [e]; exact .inl rfl
          · rw [e]; exact .inr ⟨rfl, l⟩
          · have := (h0 i f (by rw [e1]; simp)).1
            omega
          · rw [e]; exact .inl rfl
        · exact .inl rfl
      · exact .inl rfl
    refine ⟨hi', by rw [ht', Table.addRouter_local]; exact hl, ?_, ?_⟩
    · intro i f hf
      rcases heff i with e | ⟨e, _⟩
      · rw [e] at hf
        obtain ⟨a, q, hq, e⟩ := h0 i f hf
        exact ⟨a, q, by simp [hq], e⟩
      · rw [e] at hf
        rcases List.mem_append.mp hf with hf | hf
        · obtain ⟨a, q, hq, e⟩ := h0 i f hf
          exact ⟨a, q, by simp [hq], e⟩
        · have : f = { key := r.1 } := by simpa using hf
          subst this
          exact ⟨rfl, r, by simp, rfl⟩
    · intro q hq hne h32
      rcases List.mem_append.mp hq with hq | hq
      · rcases hk q hq hne h32 with ⟨i, f, hf, e⟩ | ⟨i, h1, h2, h3⟩
        · left
          refine ⟨i, f, ?_, e⟩
          rcases heff i with e | ⟨e, _⟩
          · rw [e]; exact hf
          · rw [e]; simp [hf]
        · right
          refine ⟨i, h1, ?_⟩
          rcases heff i with e | ⟨e, hlt⟩
          · rw [e]
            refine ⟨h2, fun f hf => ?_⟩
            obtain ⟨x, hx, h⟩ := h3 f hf
            exact ⟨x, by simp [hx], h⟩
          · omega
      · have : q = r := by simpa using hq
        subst this
        have hd : distance t.localKey q.1 ≠ 0 := by
          rw [hl]
          intro e
          exact hne ((distance_eq_zero (h32.trans (hr q (by simp)).symm)).mp e).symm
        have hidx : ilog2 (distance t.localKey q.1) = some (distance t.localKey q.1).log2 := by
          unfold ilog2; rw [if_neg hd]
        have hb : t'.buckets (distance t.localKey q.1).log2 = ((t.buckets (distance t.localKey q.1).log2).tryInsert q.1).1 := by
          rw [ht']
          unfold Table.addRouter
          rw [hidx]
          simp [Table.set]
        have hrange := ilog2_some hidx
        rw [hl] at hrange hb
        generalize (distance l q.1).log2 = i at *
        rcases tryInsert_cases (t.buckets i) q.1 with ⟨⟨f, hf, e'⟩, e⟩ | ⟨_, _, e⟩ | ⟨_, _, u, f, v, e1, hneg, _, _⟩ | ⟨_, h20, _, e⟩
        · left
          rw [e] at hb
          exact ⟨i, f, by rw [hb]; exact hf, e'⟩
        · left
          rw [e] at hb
          exact ⟨i, { key := q.1 }, by rw [hb]; simp, rfl⟩
        · have := (h0 i f (by rw [e1]; simp)).1
          omega
        · right
          rw [e] at hb
          refine ⟨i, hrange, ?_, ?_⟩
          · have := hi.len i
            rw [hb]; show (t.buckets i).length = 20; omega
          · intro f hf
            rw [hb] at hf
            obtain ⟨_, x, hx, ex⟩ := h0 i f hf
            exact ⟨x, by simp [hx], ex, hs3 x hx q (by simp)⟩

/-- C90: the table built at start-up contains only the given floodfills, and leaves one out only if the 20 places of its bucket
are taken by floodfills that performed at least as well. -/
theorem C90_best_floodfills_kept {l : Bytes} (hl : l.length = 32) {routers : List Bytes} (hr : ∀ r ∈ routers, r.length = 32)
    (score : Bytes → Int) :
    let t := Table.ofFloodfills l routers score
    (∀ r, t.knows r → r ∈ routers) ∧
    ∀ r ∈ routers, r ≠ l → t.knows r ∨
      ∃ i, (2 ^ i ≤ distance l r ∧ distance l r < 2 ^ (i + 1)) ∧ (t.buckets i).length = 20 ∧
        ∀ f ∈ t.buckets i, score r ≤ score f.key := by
  intro t
  have hperm := sortBy_perm (fun a b : Bytes × Int => decide (b.2 ≤ a.2)) (routers.map fun r => (r, score r))
  have hsort := sortBy_pairwise (le := fun a b : Bytes × Int => decide (b.2 ≤ a.2))
    (by intro a b c h1 h2; simp only [decide_eq_true_eq] at *; omega)
    (by intro a b; simp only [Bool.or_eq_true, decide_eq_true_eq]; omega) (routers.map fun r => (r, score r))
  have ht : t = (sortBy (fun a b : Bytes × Int => decide (b.2 ≤ a.2)) (routers.map fun r => (r, score r))).foldl
    (fun t r => t.addRouter r.1) (Table.new l) := rfl
  have hmem : ∀ e, e ∈ sortBy (fun a b : Bytes × Int => decide (b.2 ≤ a.2)) (routers.map fun r => (r, score r)) ↔
      e.1 ∈ routers ∧ e.2 = score e.1 := by
    intro e
    rw [hperm.mem_iff, List.mem_map]
    constructor
    · rintro ⟨r, h, rfl⟩; exact ⟨h, rfl⟩
    · rintro ⟨h1, h2⟩; exact ⟨e.1, h1, Prod.ext rfl h2.symm⟩
  generalize sortBy (fun a b : Bytes × Int => decide (b.2 ≤ a.2)) (routers.map fun r => (r, score r)) = rs at *
  have h := foldl_add_inv (l := l) rs (fun r hx => hr _ ((hmem r).mp hx).1) (hsort.imp (by intro a b h; simpa using h))
  rw [← ht] at h
  obtain ⟨_, _, h0, hk⟩ := h
  refine ⟨?_, ?_⟩
  · rintro r ⟨i, f, hf, e⟩
    obtain ⟨_, q, hq, e'⟩ := h0 i f hf
    rw [← e, ← e']
    exact ((hmem q).mp hq).1
  · intro r hrr hne
    rcases hk (r, score r) ((hmem _).mpr ⟨hrr, rfl⟩) hne hl with h | ⟨i, h1, h2, h3⟩
    · exact .inl h
    · refine .inr ⟨i, h1, h2, fun f hf => ?_⟩
      obtain ⟨q, hq, e, hle⟩ := h3 f hf
      rw [((hmem q).mp hq).2, e] at hle
      exact hle

-- 21 routers compete for bucket 5; the worst of them, 40, is left out
example :
    let t := Table.ofFloodfills (exId 0) ((List.range' 32 21).map exId) (fun r => if r = exId 40 then -1 else 3)
    (t.buckets 5).length = 20 ∧ exId 40 ∉ (t.buckets 5).map (·.key) := by decide +kernel

end Emissary.Netdb
