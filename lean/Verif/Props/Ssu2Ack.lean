import Verif.Model.Ssu2Active
import Verif.Props.TunnelFragment
/-!
# C35, C71: SSU2 acknowledgements
-/
namespace Emissary.Ssu2
open Emissary Emissary.I2np Emissary.Stream

/-! ## Specification -/

/-- Packet numbers acknowledged by the ranges of an ack block; everything from `below` on has been dealt with. Each range is
"skip `n`, acknowledge `a`" (SSU2 specification, ack block). -/
def rangeAcked (k : Nat) : Nat → List (Nat × Nat) → Prop
  | _, [] => False
  | below, (n, a) :: rs => (k < below - n ∧ below - n - a ≤ k) ∨ rangeAcked k (below - n - a) rs

/-- Packet `k` is acknowledged by an ack block: the packets `through`, `through - 1`, …, `through - count`, then the ranges. -/
def Acked (b : Nat × Nat × Option (List (Nat × Nat))) (k : Nat) : Prop :=
  (k ≤ b.1 ∧ b.1 ≤ k + b.2.1) ∨ rangeAcked k (b.1 - b.2.1) (b.2.2.getD [])

/-- The acknowledgement state after receiving the packets `ns`, in this order. -/
def received (ns : List Nat) : AckMgr := ns.foldl AckMgr.register {}

/-! ## The state -/

/-- Received, counting packet 0 (the last handshake message) as received. -/
def got (ns : List Nat) (k : Nat) : Bool := k == 0 || ns.contains k

/-- All packet numbers up to `h`, each with whether it has been received. -/
def table (f : Nat → Bool) (h : Nat) : OMap Bool := (List.range (h + 1)).map (fun k => (k, f k))

theorem map_sorted (f : Nat → Bool) (l : List Nat) (hl : l.Pairwise (· < ·)) : OMap.Sorted (l.map (fun k => (k, f k))) := by
  simp only [OMap.Sorted, List.pairwise_map]; exact hl

theorem table_sorted (f : Nat → Bool) (h : Nat) : OMap.Sorted (table f h) :=
  map_sorted f _ List.pairwise_lt_range

theorem get?_map (f : Nat → Bool) (l : List Nat) (k : Nat) :
    OMap.get? k (l.map (fun k => (k, f k))) = if k ∈ l then some (f k) else none := by
  induction l with
  | nil => simp
  | cons a l ih =>
    simp only [List.map_cons, OMap.get?, ih, List.mem_cons]
    by_cases h : k = a <;> simp [h]

theorem get?_table (f : Nat → Bool) (h k : Nat) : OMap.get? k (table f h) = if k ≤ h then some (f k) else none := by
  simp [table, get?_map, Nat.lt_succ_iff]

theorem sorted_put {m : OMap Bool} (hs : OMap.Sorted m) (n : Nat) (v : Bool) : OMap.Sorted (put m n v) := by
  simp only [put]; split
  · exact hs
  · exact OMap.sorted_ins hs

theorem get?_put (m : OMap Bool) (n : Nat) (v : Bool) (k : Nat) :
    OMap.get? k (put m n v) = if k = n then some ((OMap.get? n m).getD v) else OMap.get? k m := by
  by_cases hh : OMap.has n m = true
  · obtain ⟨w, hw⟩ := Option.isSome_iff_exists.mp hh
    simp only [put, hh, if_true, hw, Option.getD_some]
    by_cases h : k = n
    · subst h; simp [hw]
    · simp [h]
  · have hw : OMap.get? n m = none := by simpa [OMap.has] using hh
    simp only [put, hh, Bool.false_eq_true, if_false, OMap.get?_ins, hw, Option.getD_none]

theorem fold_put (l : List Nat) : ∀ (m : OMap Bool), OMap.Sorted m →
    OMap.Sorted (l.foldl (fun m k => put m k false) m) ∧
    ∀ k, OMap.get? k (l.foldl (fun m k => put m k false) m) =
      if k ∈ l then some ((OMap.get? k m).getD false) else OMap.get? k m := by
  induction l with
  | nil => intro m hs; exact ⟨hs, by simp⟩
  | cons a l ih =>
    intro m hs
    obtain ⟨i1, i2⟩ := ih (put m a false) (sorted_put hs a false)
    refine ⟨i1, fun k => ?_⟩
    rw [List.foldl_cons, i2 k, get?_put]
    by_cases h : k = a
    · subst h; simp
    · simp [h]

/-- The state is the table of everything up to the highest number received. -/
structure Inv (ns : List Nat) (a : AckMgr) : Prop where
  high : a.highest = ns.foldl max 0
  sorted : OMap.Sorted a.packets
  empty : ns = [] → a.packets = []
  get : ns ≠ [] → ∀ k, OMap.get? k a.packets = if k ≤ a.highest then some (got ns k) else none

theorem foldl_max_le (l : List Nat) : ∀ m, m ≤ l.foldl max m ∧ ∀ x ∈ l, x ≤ l.foldl max m := by
  induction l with
  | nil => intro m; simp
  | cons a l ih =>
    intro m
    obtain ⟨h1, h2⟩ := ih (max m a)
    simp only [List.foldl_cons]
    refine ⟨by omega, ?_⟩
    intro x hx
    rcases List.mem_cons.mp hx with rfl | hx
    · omega
    · exact h2 x hx

theorem foldl_max_mem (l : List Nat) : ∀ m, l.foldl max m = m ∨ l.foldl max m ∈ l := by
  induction l with
  | nil => intro m; simp
  | cons a l ih =>
    intro m
    simp only [List.foldl_cons]
    rcases ih (max m a) with h | h
    · rw [h]
      rcases Nat.le_total m a with h' | h'
      · right; simp [Nat.max_eq_right h']
      · left; exact Nat.max_eq_left h'
    · exact Or.inr (by simp [h])

theorem got_high (ns : List Nat) : got ns (ns.foldl max 0) = true := by
  rcases foldl_max_mem ns 0 with h | h
  · simp [got, h]
  · simp [got, h]

theorem got_beyond (ns : List Nat) (k : Nat) (h : ns.foldl max 0 < k) : got ns k = false := by
  simp only [got, Bool.or_eq_false_iff, beq_eq_false_iff_ne]
  refine ⟨by omega, ?_⟩
  simp only [List.contains_eq_mem, decide_eq_false_iff_not]
  intro hm
  have := (foldl_max_le ns 0).2 k hm; omega

theorem got_snoc (ns : List Nat) (n k : Nat) : got (ns ++ [n]) k = (got ns k || k == n) := by
  simp only [got, List.contains_eq_mem, List.mem_append, List.mem_singleton, Bool.or_assoc, Bool.decide_or]
  congr 2

/-- What the state holds about `k`, seen as "received, if it is known". -/
theorem Inv.register {ns : List Nat} {a : AckMgr} (h : Inv ns a) (n : Nat) : Inv (ns ++ [n]) (a.register n) := by
  have hhigh : (ns ++ [n]).foldl max 0 = max a.highest n := by simp [List.foldl_append, h.high]
  have hgot : got ns a.highest = true := by rw [h.high]; exact got_high ns
  have hbey : ∀ k, a.highest < k → got ns k = false := fun k hk => got_beyond ns k (by rw [← h.high]; exact hk)
  -- lookups before the step
  have hpre : ∀ k, (ns = [] ∧ a.highest = 0 ∧ OMap.get? k a.packets = none) ∨
      OMap.get? k a.packets = if k ≤ a.highest then some (got ns k) else none := by
    intro k
    by_cases hn : ns = []
    · left; exact ⟨hn, by rw [h.high, hn]; rfl, by rw [h.empty hn]; rfl⟩
    · right; exact h.get hn k
  simp only [AckMgr.register]
  split
  · rename_i e
    refine ⟨by simp only [hhigh]; omega, sorted_put (sorted_put h.sorted _ _) _ _, by simp, ?_⟩
    intro _ k
    simp only [get?_put, got_snoc]
    have hne : n ≠ a.highest := by omega
    by_cases hkn : k = n
    · subst hkn
      simp only [if_true, hne, if_false, Nat.le_refl]
      rcases hpre k with ⟨_, _, e1⟩ | e1
      · simp [e1]
      · rw [e1, if_neg (by omega)]; simp
    · simp only [hkn, if_false]
      by_cases hkh : k = a.highest
      · subst hkh
        rw [if_pos rfl, if_pos (by omega)]
        rcases hpre a.highest with ⟨_, _, e1⟩ | e1
        · simp [e1, hgot]
        · rw [e1, if_pos (Nat.le_refl _)]; simp [hgot]
      · rw [if_neg hkh]
        rcases hpre k with ⟨e0, e2, e1⟩ | e1
        · rw [e1, if_neg (by omega)]
        · rw [e1]
          by_cases hle : k ≤ a.highest
          · rw [if_pos hle, if_pos (by omega)]; simp [hkn]
          · rw [if_neg hle, if_neg (by omega)]
  · rename_i e
    -- the state before the final insertion
    have hskip : OMap.Sorted (a.skipTo n).packets ∧ (a.skipTo n).highest = max a.highest n ∧
        ∀ k, k ≠ n → ((a.skipTo n).packets.get? k = if k ≤ max a.highest n then some (got ns k) else none) ∨
          (ns = [] ∧ n = 0 ∧ (a.skipTo n).packets = []) := by
      simp only [AckMgr.skipTo]
      split
      · rename_i hlt
        obtain ⟨f1, f2⟩ := fold_put (List.range' (a.highest + 1) (n - (a.highest + 1))) a.packets h.sorted
        refine ⟨sorted_put f1 _ _, by simp only []; omega, ?_⟩
        intro k hkn
        left
        simp only [get?_put, f2, List.mem_range'_1]
        by_cases hkh : k = a.highest
        · subst hkh
          rw [if_pos rfl, if_neg (by omega), if_pos (by omega)]
          rcases hpre a.highest with ⟨_, _, e1⟩ | e1
          · simp [e1, hgot]
          · rw [e1, if_pos (Nat.le_refl _)]; simp [hgot]
        · rw [if_neg hkh]
          rcases hpre k with ⟨_, e2, e1⟩ | e1
          · rw [e1]
            by_cases hk : k ≤ max a.highest n
            · rw [if_pos (by omega), if_pos hk, hbey k (by omega)]; rfl
            · rw [if_neg (by omega), if_neg hk]
          · rw [e1]
            by_cases hle : k ≤ a.highest
            · rw [if_neg (by omega), if_pos hle, if_pos (by omega)]
            · by_cases hk : k ≤ max a.highest n
              · rw [if_pos (by omega), if_neg hle, if_pos hk, hbey k (by omega)]; rfl
              · rw [if_neg (by omega), if_neg hle, if_neg hk]
      · rename_i hge
        refine ⟨h.sorted, by omega, ?_⟩
        intro k hkn
        have hm : max a.highest n = a.highest := by omega
        rw [hm]
        by_cases hn : ns = []
        · right
          have : a.highest = 0 := by rw [h.high, hn]; rfl
          exact ⟨hn, by omega, h.empty hn⟩
        · left; exact h.get hn k
    obtain ⟨s1, s2, s3⟩ := hskip
    rw [if_pos (by omega)]
    refine ⟨by simp only [s2, hhigh], sorted_put (OMap.sorted_del s1) _ _, by simp, ?_⟩
    intro _ k
    simp only [get?_put, OMap.get?_del, got_snoc, s2]
    by_cases hkn : k = n
    · subst hkn; rw [if_pos rfl, if_pos trivial, if_pos (by omega)]; simp
    · rw [if_neg hkn]
      have hc : ¬ (n = k) := fun h => hkn h.symm
      simp only [hkn, if_false, beq_eq_false_iff_ne.mpr hkn, Bool.or_false]
      rcases s3 k hkn with e1 | ⟨e0, e2, e3⟩
      · exact e1
      · rw [e3, if_neg]
        · rfl
        · have : a.highest = 0 := by rw [h.high, e0]; rfl
          omega

theorem received_inv (ns : List Nat) : Inv ns (received ns) := by
  induction ns using List.reverseRecOn with
  | nil => exact ⟨rfl, by simp [received, OMap.Sorted], fun _ => rfl, by simp⟩
  | append_singleton ns n ih =>
    have : received (ns ++ [n]) = (received ns).register n := by simp [received, List.foldl_append]
    rw [this]; exact ih.register n

/-- The state as a table. -/
theorem received_table (ns : List Nat) (h : ns ≠ []) :
    received ns = { highest := ns.foldl max 0, packets := table (got ns) (ns.foldl max 0) } := by
  have hi := received_inv ns
  have : (received ns).packets = table (got ns) (received ns).highest := by
    refine OMap.sorted_ext hi.sorted (table_sorted _ _) (fun k => ?_)
    rw [hi.get h, get?_table]
  rw [← hi.high, ← this]

/-! ## Decoding the ranges -/

/-- The numbers below `n`, descending. -/
def down (f : Nat → Bool) (n : Nat) : List (Nat × Bool) := ((List.range n).reverse).map (fun k => (k, f k))

theorem down_succ (f : Nat → Bool) (n : Nat) : down f (n + 1) = (n, f n) :: down f n := by
  simp [down, List.range_succ]

theorem table_reverse (f : Nat → Bool) (h : Nat) : (table f h).reverse = down f (h + 1) := by
  simp [table, down, List.map_reverse]

/-- Run lengths written out. -/
def expand : Bool → List Nat → List Bool
  | _, [] => []
  | b, n :: t => List.replicate n b ++ expand (!b) t

/-- The value of the run after `L`. -/
def runVal (b : Bool) (L : List Nat) : Bool := if L.length % 2 = 0 then b else !b

theorem expand_snoc (L : List Nat) : ∀ b n, expand b (L ++ [n]) = expand b L ++ List.replicate n (runVal b L) := by
  induction L with
  | nil => intro b n; simp [expand, runVal]
  | cons a L ih =>
    intro b n
    simp only [List.cons_append, expand, ih, List.append_assoc]
    congr 3
    simp only [runVal, List.length_cons]
    rcases Nat.mod_two_eq_zero_or_one L.length with h | h
    · have h' : (L.length + 1) % 2 = 1 := by omega
      simp [h, h']
    · have h' : (L.length + 1) % 2 = 0 := by omega
      simp [h, h']

theorem bumpLast_snoc (L : List Nat) (n : Nat) : bumpLast (L ++ [n]) = L ++ [n + 1] := by
  induction L with
  | nil => rfl
  | cons a L ih =>
    cases L with
    | nil => rfl
    | cons b L => simpa [bumpLast] using ih

/-- The grouping keeps the sequence of received and missing packets. -/
theorem fold_ranges (rest : List (Nat × Bool)) : ∀ (L : List Nat) (n : Nat) (m : Bool), m = !(runVal false L) →
    expand false (rest.foldl rangeStep (L ++ [n], m)).1 = expand false (L ++ [n]) ++ rest.map (·.2) := by
  induction rest with
  | nil => intro L n m _; simp
  | cons e rest ih =>
    intro L n m hm
    obtain ⟨v, r⟩ := e
    have hflip : runVal false (L ++ [n]) = !(runVal false L) := by
      simp only [runVal, List.length_append, List.length_singleton]
      rcases Nat.mod_two_eq_zero_or_one L.length with h | h
      · have h' : (L.length + 1) % 2 = 1 := by omega
        simp [h, h']
      · have h' : (L.length + 1) % 2 = 0 := by omega
        simp [h, h']
    have hbump : ∀ r', r' = runVal false L → expand false (L ++ [n + 1]) = expand false (L ++ [n]) ++ [r'] := by
      rintro _ rfl
      rw [expand_snoc, expand_snoc, List.replicate_succ', List.append_assoc]
    have hnew : ∀ r', r' = !(runVal false L) → expand false (L ++ [n] ++ [1]) = expand false (L ++ [n]) ++ [r'] := by
      rintro _ rfl
      rw [expand_snoc (L ++ [n]), hflip]; rfl
    simp only [List.foldl_cons, rangeStep]
    cases m <;> cases r <;> simp only [bumpLast_snoc]
    · rw [ih (L ++ [n]) 1 true (by rw [hflip]; simpa using hm), hnew false (by simpa using hm)]; simp
    · rw [ih L (n + 1) false hm, hbump true (by simpa using hm)]; simp
    · rw [ih L (n + 1) true hm, hbump false (by simpa using hm)]; simp
    · rw [ih (L ++ [n]) 1 false (by rw [hflip]; simpa using hm), hnew true (by simpa using hm)]; simp

theorem down_vals (f : Nat → Bool) (n : Nat) : (down f n).map (·.2) = ((List.range n).reverse).map f := by
  simp [down]

/-- A run at the top of the descending list. -/
theorem split_run (f : Nat → Bool) (v : Bool) (R : List Bool) : ∀ (a n : Nat),
    List.replicate a v ++ R = (down f n).map (·.2) →
    a ≤ n ∧ (∀ k, n - a ≤ k → k < n → f k = v) ∧ R = (down f (n - a)).map (·.2) := by
  intro a
  induction a with
  | zero => intro n h; exact ⟨Nat.zero_le _, by intro k h1 h2; omega, by simpa using h⟩
  | succ a ih =>
    intro n h
    cases n with
    | zero => simp [down, List.replicate_succ] at h
    | succ n =>
      rw [down_succ, List.replicate_succ] at h
      simp only [List.cons_append, List.map_cons, List.cons.injEq] at h
      obtain ⟨i1, i2, i3⟩ := ih n h.2
      refine ⟨by omega, ?_, by simpa using i3⟩
      intro k h1 h2
      by_cases hk : k = n
      · subst hk; exact h.1.symm
      · exact i2 k (by omega) (by omega)

theorem decode (f : Nat → Bool) (k : Nat) (L : List Nat) : ∀ (n : Nat), (∀ x ∈ L, x ≤ 255) →
    expand false L = (down f n).map (·.2) → (rangeAcked k n (pairs L) ↔ k < n ∧ f k = true) := by
  fun_induction pairs L with
  | case1 =>
    intro n _ h
    have : n = 0 := by have := congrArg List.length h; simpa [expand, down] using this.symm
    subst this; simp [rangeAcked]
  | case2 a =>
    intro n hb h
    have ha := hb a (by simp)
    obtain ⟨i1, i2, i3⟩ := split_run f false (expand true []) a n (by simpa [expand] using h)
    have h0 : n - a = 0 := by have := congrArg List.length i3; simpa [expand, down] using this.symm
    simp only [rangeAcked, or_false, Nat.min_eq_left ha]
    constructor
    · rintro ⟨h1, _⟩; omega
    · rintro ⟨h1, h2⟩; rw [i2 k (by omega) h1] at h2; simp at h2
  | case3 a b t ih =>
    intro n hb h
    have ha := hb a (by simp)
    have hbb := hb b (by simp)
    simp only [expand, Bool.not_false, Bool.not_true] at h
    obtain ⟨i1, i2, i3⟩ := split_run f false _ a n h
    obtain ⟨j1, j2, j3⟩ := split_run f true _ b (n - a) i3
    simp only [rangeAcked, Nat.min_eq_left ha, Nat.min_eq_left hbb, ih (n - a - b) (fun x hx => hb x (by simp [hx])) j3]
    constructor
    · rintro (⟨h1, h2⟩ | ⟨h1, h2⟩)
      · exact ⟨by omega, j2 k h2 h1⟩
      · exact ⟨by omega, h2⟩
    · rintro ⟨h1, h2⟩
      rcases Nat.lt_or_ge k (n - a) with h3 | h3
      · rcases Nat.lt_or_ge k (n - a - b) with h4 | h4
        · exact Or.inr ⟨h4, h2⟩
        · exact Or.inl ⟨h3, h4⟩
      · rw [i2 k h3 h1] at h2; simp at h2

/-- A run of more than 255 packets is a window of 256 equal ones. -/
theorem run_window (f : Nat → Bool) (L : List Nat) : ∀ (b : Bool) (n : Nat), expand b L = (down f n).map (·.2) →
    (∀ j, j + 256 ≤ n → ¬ (∃ v, ∀ i, i < 256 → f (j + i) = v)) → ∀ x ∈ L, x ≤ 255 := by
  induction L with
  | nil => intro b n _ _ x hx; simp at hx
  | cons a L ih =>
    intro b n h hw x hx
    obtain ⟨i1, i2, i3⟩ := split_run f b _ a n h
    rcases List.mem_cons.mp hx with rfl | hx
    · refine Classical.byContradiction (fun hx => ?_)
      exact hw (n - x) (by omega) ⟨b, fun i hi => i2 _ (by omega) (by omega)⟩
    · exact ih (!b) (n - a) i3 (fun j hj => hw j (by omega)) x hx

/-- The first missing packet below `n`. -/
theorem afterMissing_down (f : Nat → Bool) (n : Nat) :
    ((∀ k, k < n → f k = true) ∧ afterMissing (down f n) = none) ∨
    ∃ m, m < n ∧ f m = false ∧ (∀ k, m < k → k < n → f k = true) ∧ afterMissing (down f n) = some (down f m) := by
  induction n with
  | zero => left; exact ⟨by omega, rfl⟩
  | succ n ih =>
    rw [down_succ]
    cases hf : f n with
    | false => right; exact ⟨n, by omega, hf, by omega, rfl⟩
    | true =>
      rcases ih with ⟨h1, h2⟩ | ⟨m, h1, h2, h3, h4⟩
      · left
        refine ⟨fun k hk => ?_, by simpa [afterMissing] using h2⟩
        by_cases hkn : k = n
        · rw [hkn]; exact hf
        · exact h1 k (by omega)
      · right
        refine ⟨m, by omega, h2, fun k hk1 hk2 => ?_, by simpa [afterMissing] using h4⟩
        by_cases hkn : k = n
        · rw [hkn]; exact hf
        · exact h3 k hk1 (by omega)

theorem contiguous_all (f : Nat → Bool) (h n : Nat) : ∀ i, n + i = h → (∀ k, k < n → f k = true) →
    contiguous h i (down f n) = n := by
  induction n with
  | zero => intro i _ _; rfl
  | succ n ih =>
    intro i hi hall
    rw [down_succ, contiguous, hall n (by omega), if_pos (by simp; omega), ih (i + 1) (by omega) (fun k hk => hall k (by omega))]

theorem contiguous_gap (f : Nat → Bool) (h m n : Nat) : ∀ i, n + i = h → m < n → f m = false →
    (∀ k, m < k → k < n → f k = true) → contiguous h i (down f n) = n - m - 1 := by
  induction n with
  | zero => intro i _ hm; omega
  | succ n ih =>
    intro i hi hm hf hall
    rw [down_succ, contiguous]
    by_cases hmn : m = n
    · subst hmn; rw [hf]; simp
    · rw [hall n (by omega) (by omega), if_pos (by simp; omega),
        ih (i + 1) (by omega) (by omega) hf (fun k h1 h2 => hall k h1 (by omega))]
      omega

/-- The ack block of a table, with windows short enough to be written in bytes. -/
theorem ackInfo_exact (f : Nat → Bool) (h : Nat) (hh : f h = true)
    (hw : ∀ j, j + 256 ≤ h → ¬ (∃ v, ∀ i, i < 256 → f (j + i) = v)) (k : Nat) :
    Acked (AckMgr.ackInfo { highest := h, packets := table f h }) k ↔ k ≤ h ∧ f k = true := by
  simp only [AckMgr.ackInfo, table_reverse]
  have hdrop : (down f (h + 1)).drop 1 = down f h := by rw [down_succ]; rfl
  rw [hdrop]
  rcases afterMissing_down f (h + 1) with ⟨h1, h2⟩ | ⟨m, h1, h2, h3, h4⟩
  · rw [h2, contiguous_all f h h 0 (by omega) (fun k hk => h1 k (by omega))]
    have : h ≤ 255 := by
      refine Classical.byContradiction (fun hx => ?_)
      exact hw 0 (by omega) ⟨true, fun i hi => h1 _ (by omega)⟩
    simp only [Acked, Option.getD_none, rangeAcked, or_false]
    constructor
    · rintro ⟨a, _⟩; exact ⟨a, h1 k (by omega)⟩
    · rintro ⟨a, _⟩; exact ⟨a, by omega⟩
  · have hmh : m < h := by
      rcases Nat.lt_or_ge m h with h' | h'
      · exact h'
      · have : m = h := by omega
        rw [this, hh] at h2; simp at h2
    rw [h4, contiguous_gap f h m h 0 (by omega) hmh h2 (fun k a b => h3 k a (by omega))]
    have hle : h - m - 1 ≤ 255 := by
      refine Classical.byContradiction (fun hx => ?_)
      exact hw (h - 256) (by omega) ⟨true, fun i hi => h3 _ (by omega) (by omega)⟩
    have hexp : expand false ((down f m).foldl rangeStep ([1], true)).1 = (down f (m + 1)).map (·.2) := by
      have := fold_ranges (down f m) [] 1 true rfl
      simp only [List.nil_append] at this
      rw [this, down_succ]
      simp [expand, h2]
    have hb := run_window f _ false (m + 1) hexp (fun j hj => hw j (by omega))
    have hd := decode f k _ (m + 1) hb hexp
    simp only [Acked, Option.getD_some, Nat.min_eq_left hle]
    have e : h - (h - m - 1) = m + 1 := by omega
    rw [e, hd]
    constructor
    · rintro (⟨a, b⟩ | ⟨a, b⟩)
      · exact ⟨a, h3 k (by omega) (by omega)⟩
      · exact ⟨by omega, b⟩
    · rintro ⟨a, b⟩
      rcases Nat.lt_or_ge k (m + 1) with h' | h'
      · exact Or.inr ⟨h', b⟩
      · exact Or.inl ⟨a, by omega⟩

/-! ## Theorems -/

/-- C35 (partial): whatever packets arrive, in whatever order and however often, the ack block acknowledges exactly the packets received
and packet 0 (the handshake), provided no 256 consecutive numbers below one received are all received or all missing.
Missing: longer runs (see `C35_long_gap_acks_unreceived_violated`). -/
theorem C35_acks_exactly_received_partial (ns : List Nat)
    (hw : ∀ j, (∃ n ∈ ns, j + 256 ≤ n) →
      (∃ i, i < 256 ∧ (j + i = 0 ∨ j + i ∈ ns)) ∧ (∃ i, i < 256 ∧ j + i ≠ 0 ∧ j + i ∉ ns)) (k : Nat) :
    Acked (received ns).ackInfo k ↔ k = 0 ∨ k ∈ ns := by
  by_cases hn : ns = []
  · subst hn
    have : (received []).ackInfo = (0, 0, none) := rfl
    rw [this]
    simp only [Acked, Option.getD_none, rangeAcked, or_false, List.not_mem_nil]
    constructor
    · rintro ⟨a, _⟩; omega
    · intro a; omega
  · rw [received_table ns hn, ackInfo_exact (got ns) _ (got_high ns)]
    · have hiff : got ns k = true ↔ k = 0 ∨ k ∈ ns := by simp [got]
      rw [hiff]
      constructor
      · exact fun h => h.2
      · intro h
        refine ⟨?_, h⟩
        rcases h with rfl | h
        · omega
        · exact (foldl_max_le ns 0).2 k h
    · rintro j hj ⟨v, hv⟩
      have hex : ∃ n ∈ ns, j + 256 ≤ n := by
        rcases foldl_max_mem ns 0 with h | h
        · omega
        · exact ⟨_, h, hj⟩
      obtain ⟨⟨i1, a1, a2⟩, ⟨i2, b1, b2, b3⟩⟩ := hw j hex
      have e1 : got ns (j + i1) = true := by simpa [got] using a2
      have e2 : got ns (j + i2) = false := by simp only [got, Bool.or_eq_false_iff, beq_eq_false_iff_ne]; exact ⟨b2, by simpa using b3⟩
      rw [hv i1 a1] at e1
      rw [hv i2 b1, e1] at e2
      simp at e2

/-- The hypotheses hold for a session with losses and reordering. -/
example : ∀ k, Acked (received [1, 2, 9, 5, 6, 5, 3, 11]).ackInfo k ↔ k = 0 ∨ k ∈ [1, 2, 9, 5, 6, 5, 3, 11] :=
  C35_acks_exactly_received_partial _ (by
    rintro j ⟨n, hn, h⟩
    simp only [List.mem_cons, List.not_mem_nil, or_false] at hn
    omega)
example : (received [1, 2, 9, 5, 6, 5, 3, 11]).ackInfo = (11, 0, some [(1, 1), (2, 2), (1, 4)]) := by decide +kernel

/-- C35 (partial): the packets acknowledged by ack-through and count alone were received, whatever the gaps are. -/
theorem C35_top_range_sound_partial (ns : List Nat) (k : Nat) (hk : k ≤ (received ns).ackInfo.1)
    (hc : (received ns).ackInfo.1 ≤ k + (received ns).ackInfo.2.1) : k = 0 ∨ k ∈ ns := by
  by_cases hn : ns = []
  · subst hn; left
    have : (received []).ackInfo = (0, 0, none) := rfl
    rw [this] at hk; simpa using hk
  · have hiff : got ns k = true ↔ k = 0 ∨ k ∈ ns := by simp [got]
    rw [← hiff]
    rw [received_table ns hn] at hk hc
    generalize hh : ns.foldl max 0 = h at *
    have hgh : got ns h = true := hh ▸ got_high ns
    simp only [AckMgr.ackInfo, table_reverse] at hk hc
    have hdrop : (down (got ns) (h + 1)).drop 1 = down (got ns) h := by rw [down_succ]; rfl
    rw [hdrop] at hk hc
    rcases afterMissing_down (got ns) (h + 1) with ⟨h1, h2⟩ | ⟨m, h1, h2, h3, h4⟩
    · simp only [h2] at hk hc
      exact h1 k (by omega)
    · have hmh : m < h := by
        rcases Nat.lt_or_ge m h with h' | h'
        · exact h'
        · have : m = h := by omega
          rw [this, hgh] at h2; simp at h2
      simp only [h4] at hk hc
      rw [contiguous_gap (got ns) h m h 0 (by omega) hmh h2 (fun k a b => h3 k a (by omega))] at hc
      exact h3 k (by omega) (by omega)

/-- C35: the ack block depends only on which packets have arrived, not on their order or repetition. -/
theorem C35_order_independent (ns ms : List Nat) (h : ∀ n, n ∈ ns ↔ n ∈ ms) :
    (received ns).ackInfo = (received ms).ackInfo := by
  by_cases hn : ns = []
  · have : ms = [] := by
      cases ms with
      | nil => rfl
      | cons a ms => have := (h a).mpr (by simp); simp [hn] at this
    rw [hn, this]
  · have hm : ms ≠ [] := by
      rintro rfl
      cases ns with
      | nil => exact hn rfl
      | cons a ns => have := (h a).mp (by simp); simp at this
    have hg : got ns = got ms := by
      funext k
      simp only [got, List.contains_eq_mem, h]
    have hmax : ns.foldl max 0 = ms.foldl max 0 := by
      apply Nat.le_antisymm
      · rcases foldl_max_mem ns 0 with e | e
        · omega
        · exact (foldl_max_le ms 0).2 _ ((h _).mp e)
      · rcases foldl_max_mem ms 0 with e | e
        · omega
        · exact (foldl_max_le ns 0).2 _ ((h _).mpr e)
    rw [received_table ns hn, received_table ms hm, hg, hmax]

theorem fold_missing (f : Nat → Bool) (m : Nat) : ∀ n j, (∀ k, k < n → m ≤ k → f k = false) → m ≤ n →
    (down f n).foldl rangeStep ([j], true) = (down f m).foldl rangeStep ([j + (n - m)], true) := by
  intro n
  induction n with
  | zero => intro j _ h; have : m = 0 := by omega
            subst this; rfl
  | succ n ih =>
    intro j hf hm
    by_cases hmn : m = n + 1
    · subst hmn; simp
    · rw [down_succ, List.foldl_cons]
      have : rangeStep ([j], true) (n, f n) = ([j + 1], true) := by
        rw [hf n (by omega) (by omega)]; rfl
      rw [this, ih (j + 1) (fun k h1 h2 => hf k (by omega) h2) (by omega)]
      have : j + 1 + (n - m) = j + (n + 1 - m) := by omega
      rw [this]

/-- C35 violated: after a single packet with any number `n > 256` has been received, the ack block
acknowledges packet `n - 256`, which was not received (run lengths are clamped to 255 without moving the next range). -/
theorem C35_long_gap_acks_unreceived_violated (n : Nat) (hn : 256 < n) :
    Acked (received [n]).ackInfo (n - 256) ∧ n - 256 ≠ 0 ∧ n - 256 ∉ [n] := by
  refine ⟨?_, by omega, by simp; omega⟩
  rw [received_table [n] (by simp)]
  have hmax : [n].foldl max 0 = n := by simp
  rw [hmax]
  have hg : ∀ k, got [n] k = (k == 0 || k == n) := by intro k; simp only [got, List.contains_cons, List.contains_nil, Bool.or_false]
  have hmiss : ∀ k, k < n → 1 ≤ k → got [n] k = false := by
    intro k h1 h2; rw [hg]; simp; omega
  simp only [AckMgr.ackInfo, table_reverse]
  obtain ⟨m, rfl⟩ : ∃ m, n = m + 1 := ⟨n - 1, by omega⟩
  have hd : down (got [m + 1]) (m + 1 + 1) = (m + 1, true) :: (m, false) :: down (got [m + 1]) m := by
    rw [down_succ, down_succ, hmiss m (by omega) (by omega), hg]; simp
  rw [hd]
  simp only [afterMissing, List.drop_succ_cons, List.drop_zero, contiguous, Bool.false_and, Bool.false_eq_true, if_false]
  rw [fold_missing (got [m + 1]) 1 m 1 (fun k h1 h2 => hmiss k (by omega) h2) (by omega)]
  have h0 : down (got [m + 1]) 1 = [(0, true)] := by
    rw [down_succ, hg]; rfl
  rw [h0]
  have hst : ([(0, true)] : List (Nat × Bool)).foldl rangeStep ([1 + (m - 1)], true) = ([1 + (m - 1), 1], false) := rfl
  rw [hst]
  simp only [pairs, Acked, Option.getD_some, rangeAcked, or_false]
  right
  omega

/-- C71 violated: the acknowledgement state is not bounded by what was received: after any packets, it has one entry for every
packet number up to the highest received, so one packet with number `n` makes it hold `n + 1` entries. -/
theorem C71_ack_state_unbounded_violated (ns : List Nat) (n : Nat) (hn : n ∈ ns) (hmax : ∀ m ∈ ns, m ≤ n) :
    (received ns).packets.length = n + 1 := by
  have hne : ns ≠ [] := by rintro rfl; simp at hn
  have : ns.foldl max 0 = n := by
    apply Nat.le_antisymm
    · rcases foldl_max_mem ns 0 with e | e
      · omega
      · exact hmax _ e
    · exact (foldl_max_le ns 0).2 n hn
  rw [received_table ns hne, this]
  simp [table]

example : (received [4294967294]).packets.length = 4294967295 :=
  C71_ack_state_unbounded_violated [4294967294] 4294967294 (by simp) (by simp)

end Emissary.Ssu2
