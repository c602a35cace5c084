import Verif.Model.Util
import Mathlib.Data.List.Perm.Basic
/-!
# C189 to C191: shuffling, routable addresses, whole reads and writes
-/
namespace Emissary.Util

/-! ## C189: shuffling -/

theorem swap_length (l : List α) (i j : Nat) : (swap l i j).length = l.length := by
  unfold swap; split <;> simp

theorem swap_get (l : List α) {i j : Nat} (hi : i < l.length) (hj : j < l.length) (k : Nat) :
    (swap l i j)[k]? = if k = i then l[j]? else if k = j then l[i]? else l[k]? := by
  unfold swap
  rw [List.getElem?_eq_getElem hi, List.getElem?_eq_getElem hj]
  simp only [List.getElem?_set, List.length_set]
  by_cases h1 : k = i
  · subst h1; by_cases h2 : j = k
    · subst h2; simp [hj]
    · simp [h2, hi]
  · by_cases h2 : k = j
    · subst h2; simp [h1, hj]
    · simp [h1, h2, Ne.symm h1, Ne.symm h2]

theorem swap_perm (l : List α) (i j : Nat) : (swap l i j).Perm l := by
  unfold swap
  split
  · next a b ha hb =>
    obtain ⟨hi, rfl⟩ := List.getElem?_eq_some_iff.1 ha
    obtain ⟨hj, rfl⟩ := List.getElem?_eq_some_iff.1 hb
    classical
    rw [List.perm_iff_count]
    intro x
    rw [List.count_set (by simpa using hj), List.count_set hi, List.getElem_set]
    have c1 := List.count_pos_iff.2 (List.getElem_mem hi)
    have c2 := List.count_pos_iff.2 (List.getElem_mem hj)
    by_cases hij : i = j
    · subst hij; simp only [if_true]
      by_cases hx : l[i] = x
      · subst hx; simp
      · simp [hx]
    · simp only [if_neg hij]
      by_cases hx : l[i] = x
      · by_cases hy : l[j] = x
        · rw [hx] at c1; simp [hx, hy]; omega
        · rw [hx] at c1; simp [hx, hy]; omega
      · by_cases hy : l[j] = x
        · simp [hx, hy]
        · simp [hx, hy]
  · exact List.Perm.refl _

theorem shuffleFrom_perm (draw : Nat → Nat) (n : Nat) (l : List α) :
    (shuffleFrom draw n l).Perm l := by
  induction n generalizing l with
  | zero => exact .refl _
  | succ n ih => exact (ih _).trans (swap_perm _ _ _)

/-- **C189**: shuffling neither loses nor repeats anything: whatever the random numbers, the result
is a rearrangement of what was given. -/
theorem C189_rearranged (draw : Nat → Nat) (l : List α) : (shuffle draw l).Perm l :=
  shuffleFrom_perm _ _ _

theorem swap_append (l s : List α) {i j : Nat} (hi : i < l.length) (hj : j < l.length) :
    swap (l ++ s) i j = swap l i j ++ s := by
  unfold swap
  rw [List.getElem?_append_left hi, List.getElem?_append_left hj,
    List.getElem?_eq_getElem hi, List.getElem?_eq_getElem hj]
  simp only
  rw [List.set_append_left _ _ hi, List.set_append_left _ _ (by simpa using hj)]

theorem shuffleFrom_append (draw : Nat → Nat) (n : Nat) (l s : List α) (h : l.length = n + 1) :
    shuffleFrom draw n (l ++ s) = shuffleFrom draw n l ++ s := by
  suffices H : ∀ m ≤ n, ∀ l : List α, l.length = n + 1 →
      shuffleFrom draw m (l ++ s) = shuffleFrom draw m l ++ s from H n (Nat.le_refl _) l h
  intro m hm
  induction m with
  | zero => intros; rfl
  | succ m ih =>
    intro l hl
    have hj : draw (m + 1) % (m + 2) < l.length := by
      have := Nat.mod_lt (draw (m + 1)) (show 0 < m + 2 by omega); omega
    show shuffleFrom draw m (swap (l ++ s) _ _) = _
    rw [swap_append _ _ (by omega) hj]
    exact ih (by omega) _ (by rw [swap_length]; exact hl)

theorem shuffleFrom_congr (d e : Nat → Nat) (n : Nat) (l : List α) (h : ∀ i ≤ n, d i = e i) :
    shuffleFrom d n l = shuffleFrom e n l := by
  induction n generalizing l with
  | zero => rfl
  | succ n ih =>
    show shuffleFrom d n _ = shuffleFrom e n _
    rw [h (n + 1) (Nat.le_refl _)]; exact ih _ (fun i hi => h i (by omega))

theorem reach (n : Nat) : ∀ (l l' : List α), l.length = n + 1 → l'.Perm l →
    ∃ draw : Nat → Nat, (∀ i, draw i ≤ i) ∧ shuffleFrom draw n l = l' := by
  induction n with
  | zero =>
    intro l l' hl hp
    refine ⟨fun _ => 0, fun _ => Nat.zero_le _, ?_⟩
    match l, hl with
    | [a], _ => exact (List.perm_singleton.1 hp).symm
  | succ n ih =>
    intro l l' hl hp
    have hl' : l'.length = n + 2 := by rw [hp.length_eq, hl]
    have hne : l' ≠ [] := by intro h; simp [h] at hl'
    obtain ⟨j, hj, hx⟩ := List.getElem_of_mem (hp.mem_iff.1 (List.getLast_mem hne))
    -- bring the wanted last element to the end
    have hsl : (swap l (n + 1) j).length = n + 2 := by rw [swap_length, hl]
    have hsne : swap l (n + 1) j ≠ [] := by intro h; simp [h] at hsl
    have hlast : (swap l (n + 1) j).getLast hsne = l'.getLast hne := by
      have h := swap_get l (i := n + 1) (j := j) (by omega) hj (n + 1)
      rw [if_pos rfl, List.getElem?_eq_getElem hj, hx] at h
      have e := List.getLast?_eq_getElem? (l := swap l (n + 1) j)
      rw [hsl] at e
      rw [show n + 2 - 1 = n + 1 from rfl, h, List.getLast?_eq_getLast_of_ne_nil hsne] at e
      exact Option.some.inj e
    have e1 := List.dropLast_concat_getLast hsne
    have e2 := List.dropLast_concat_getLast hne
    have hp2 : l'.dropLast.Perm (swap l (n + 1) j).dropLast := by
      have h3 : l'.Perm (swap l (n + 1) j) := hp.trans (swap_perm l (n + 1) j).symm
      rw [← e1, ← e2, hlast] at h3
      exact (List.perm_append_right_iff _).1 h3
    obtain ⟨d, hd, he⟩ := ih (swap l (n + 1) j).dropLast l'.dropLast (by simp [hsl]) hp2
    refine ⟨fun i => if i = n + 1 then j else d i, fun i => ?_, ?_⟩
    · by_cases h : i = n + 1
      · simp only [h, if_true]; omega
      · simpa only [if_neg h] using hd i
    · show shuffleFrom _ n (swap l (n + 1) ((if n + 1 = n + 1 then j else d (n + 1)) % (n + 2))) = l'
      rw [if_pos rfl, Nat.mod_eq_of_lt (by omega), ← e1, shuffleFrom_append _ _ _ _ (by simp [hsl]),
        shuffleFrom_congr _ d n _ (fun i hi => if_neg (by omega)), he, hlast, e2]

/-- **C189**: and every rearrangement can come out: for each there are random numbers, 32 bits wide
as the generator's are, that give it. -/
theorem C189_every (l l' : List α) (hl : l.length ≤ 2 ^ 32) (h : l'.Perm l) :
    ∃ draw : Nat → Nat, (∀ i, draw i < 2 ^ 32) ∧ shuffle draw l = l' := by
  match l, hl with
  | [], _ => exact ⟨fun _ => 0, fun _ => Nat.two_pow_pos 32, (List.perm_nil.1 h).symm⟩
  | a :: l, hl =>
    obtain ⟨d, hd, he⟩ := reach l.length (a :: l) l' rfl h
    refine ⟨fun i => if i ≤ l.length then d i else 0, fun i => ?_, ?_⟩
    · by_cases hi : i ≤ l.length
      · have := hd i; simp only [hi, if_true]; simp only [List.length_cons] at hl; omega
      · simp [hi]
    · show shuffleFrom _ l.length (a :: l) = l'
      rw [shuffleFrom_congr _ d _ _ (fun i hi => if_pos hi)]; exact he

example : shuffle (fun _ => 0) [1, 2, 3, 4] = [2, 3, 4, 1] := by decide +kernel
example := C189_every [1, 2, 3, 4] [4, 1, 3, 2] (by decide) (by decide)

/-! ## C190: which addresses count as routable -/

/-- `x` lies in the block `base/len`. -/
def InBlock (x : Nat) (b : Nat × Nat) : Prop := x / 2 ^ (32 - b.2) = b.1 / 2 ^ (32 - b.2)

instance (x : Nat) (b : Nat × Nat) : Decidable (InBlock x b) := inferInstanceAs (Decidable (_ = _))

/-- The blocks the test knows of: unspecified, private, shared, loopback, link-local,
documentation, benchmarking and reserved. -/
def known : List (Nat × Nat) :=
  [(ip 0 0 0 0, 32), (ip 10 0 0 0, 8), (ip 100 64 0 0, 10), (ip 127 0 0 0, 8),
   (ip 169 254 0 0, 16), (ip 172 16 0 0, 12), (ip 192 0 2 0, 24), (ip 192 168 0 0, 16),
   (ip 198 18 0 0, 15), (ip 198 51 100 0, 24), (ip 203 0 113 0, 24), (ip 240 0 0 0, 4)]

/-- The test's condition, with the octets taken apart. -/
theorem isGlobal_iff (x : Nat) : isGlobal x = true ↔
    ¬ (ip 240 0 0 0 ≤ x ∧ x ≤ ip 255 255 255 254) ∧
    ¬ x / 16777216 = 10 ∧
    ¬ (x / 16777216 = 172 ∧ 16 ≤ x / 65536 % 256 ∧ x / 65536 % 256 ≤ 31) ∧
    ¬ (x / 16777216 = 192 ∧ x / 65536 % 256 = 168) ∧
    ¬ (ip 100 64 0 0 ≤ x ∧ x ≤ ip 100 127 255 255) ∧
    ¬ x / 16777216 = 127 ∧
    ¬ (x / 16777216 = 169 ∧ x / 65536 % 256 = 254) ∧
    ¬ x = 0 ∧
    ¬ (x / 16777216 = 192 ∧ x / 65536 % 256 = 0 ∧ x / 256 % 256 = 2) ∧
    ¬ (x / 16777216 = 198 ∧ x / 65536 % 256 = 51 ∧ x / 256 % 256 = 100) ∧
    ¬ (x / 16777216 = 203 ∧ x / 65536 % 256 = 0 ∧ x / 256 % 256 = 113) ∧
    ¬ (ip 198 18 0 0 ≤ x ∧ x ≤ ip 198 19 255 255) ∧
    ¬ x = ip 255 255 255 255 := by
  rw [show (isGlobal x = true) = ¬ (!isGlobal x) = true by simp]
  simp only [isGlobal, isPrivate, isDocumentation, Bool.not_not, Bool.or_eq_true,
    Bool.and_eq_true, decide_eq_true_eq, beq_iff_eq, and_assoc, or_assoc, not_or]

/-- **C190**: an address is taken for routable exactly if it lies in none of the known blocks. -/
theorem C190_blocks (x : Nat) (hx : x < 2 ^ 32) :
    isGlobal x = true ↔ ∀ b ∈ known, ¬ InBlock x b := by
  rw [isGlobal_iff]
  simp only [known, List.forall_mem_cons, List.not_mem_nil, false_imp_iff, implies_true, and_true,
    InBlock]
  simp only [Nat.reduceSub, Nat.reducePow, Nat.reduceMul, Nat.reduceAdd, Nat.reduceDiv, Nat.div_one,
    ip] at hx ⊢
  constructor
  · rintro ⟨h1, h2, h3, h4, h5, h6, h7, h8, h9, h10, h11, h12, h13⟩
    refine ⟨h8, h2, fun e => h5 ?_, h6, fun e => h7 ?_, fun e => h3 ?_, fun e => h9 ?_,
      fun e => h4 ?_, fun e => h12 ?_, fun e => h10 ?_, fun e => h11 ?_, fun e => ?_⟩
    all_goals try (clear h1 h2 h3 h4 h5 h6 h7 h8 h9 h10 h11 h12 h13; omega)
    clear h2 h3 h4 h5 h6 h7 h8 h9 h10 h11 h12; omega
  · rintro ⟨h1, h2, h3, h4, h5, h6, h7, h8, h9, h10, h11, h12⟩
    refine ⟨fun e => h12 ?_, h2, fun e => h6 ?_, fun e => h8 ?_, fun e => h3 ?_, h4,
      fun e => h5 ?_, h1, fun e => h7 ?_, fun e => h10 ?_, fun e => h11 ?_, fun e => h9 ?_,
      fun e => h12 ?_⟩
    all_goals (clear h1 h2 h3 h4 h5 h6 h7 h8 h9 h10 h11 h12; omega)

/-- **C190**, violated: multicast addresses, no router's own, are taken for routable, all of them. -/
theorem C190_multicast_violated (x : Nat) (h : InBlock x (ip 224 0 0 0, 4)) : isGlobal x = true := by
  have h' : x / 268435456 = 14 := h
  rw [C190_blocks x (by omega)]
  simp only [known, List.forall_mem_cons, List.not_mem_nil, false_imp_iff, implies_true, and_true,
    InBlock, ip]
  simp only [Nat.reduceSub, Nat.reducePow, Nat.reduceMul, Nat.reduceAdd, Nat.reduceDiv]
  omega

/-- **C190**, violated: so is all of `0.0.0.0/8` but one address. -/
theorem C190_this_network_violated (x : Nat) (h : InBlock x (ip 0 0 0 0, 8)) (h0 : x ≠ 0) :
    isGlobal x = true := by
  have h' : x / 16777216 = 0 := h
  rw [C190_blocks x (by omega)]
  simp only [known, List.forall_mem_cons, List.not_mem_nil, false_imp_iff, implies_true, and_true,
    InBlock, ip]
  simp only [Nat.reduceSub, Nat.reducePow, Nat.reduceMul, Nat.reduceAdd, Nat.reduceDiv]
  omega

example : isGlobal (ip 8 8 8 8) = true ∧ isGlobal (ip 192 168 1 1) = false ∧
    isGlobal (ip 100 127 255 255) = false ∧ isGlobal (ip 255 255 255 255) = false ∧
    isGlobal (ip 172 32 0 1) = true := by decide +kernel
example := C190_multicast_violated (ip 224 0 0 1) (by decide +kernel)
example := C190_this_network_violated (ip 0 0 0 1) (by decide +kernel) (by decide)

/-! ## C191: whole reads and writes -/

theorem readLoop_keeps (ps : List Poll) (r : Read) :
    (readLoop ps r).1.got ++ (readLoop ps r).1.stream = r.got ++ r.stream ∧
      (readLoop ps r).1.got.length + (readLoop ps r).1.room = r.got.length + r.room ∧
      ((readLoop ps r).2 = some (.ok ()) → (readLoop ps r).1.room = 0) ∧
      (readLoop ps r).2 ≠ some (.error .timeout) := by
  induction ps generalizing r with
  | nil => unfold readLoop; split <;> simp_all
  | cons p ps ih =>
    unfold readLoop
    split
    · simp_all
    · cases p with
      | pending => simp
      | error => simp
      | ready k =>
        simp only
        split
        · refine ⟨?_, ?_, by simp, by simp⟩ <;> simp <;> omega
        · obtain ⟨h1, h2, h3, h4⟩ := ih { stream := r.stream.drop (min k (min r.room r.stream.length)), got := r.got ++ r.stream.take (min k (min r.room r.stream.length)), room := r.room - (min k (min r.room r.stream.length)) }
          refine ⟨?_, ?_, h3, h4⟩
          · rw [h1]; simp
          · rw [h2]; simp; omega

theorem read_keeps (ps : List (Bool × List Poll)) (r : Read) :
    (Read.run ps r).1.got ++ (Read.run ps r).1.stream = r.got ++ r.stream ∧
      (Read.run ps r).1.got.length + (Read.run ps r).1.room = r.got.length + r.room ∧
      ((Read.run ps r).2 = some (.ok ()) → (Read.run ps r).1.room = 0) ∧
      ((Read.run ps r).2 = some (.error .timeout) → ∃ p ∈ ps, p.1 = true) := by
  induction ps generalizing r with
  | nil => simp [Read.run]
  | cons p ps ih =>
    unfold Read.run Read.poll
    by_cases hf : p.1 = true
    · simp [hf]
    · simp only [hf]
      have hk := readLoop_keeps p.2 r
      generalize readLoop p.2 r = x at hk ⊢
      obtain ⟨r', o⟩ := x
      cases o with
      | none =>
        obtain ⟨h1, h2, h3, h4⟩ := ih r'
        refine ⟨h1.trans hk.1, h2.trans hk.2.1, h3, fun h => ?_⟩
        obtain ⟨q, hq, hq'⟩ := h4 h; exact ⟨q, List.mem_cons_of_mem _ hq, hq'⟩
      | some o =>
        refine ⟨hk.1, hk.2.1, hk.2.2.1, fun h => absurd h hk.2.2.2⟩

/-- **C191**: a read of `n` bytes that succeeds gives the next `n` bytes of the stream, in order,
and takes no more: however the bytes were cut up on the way, whatever the socket said in between. -/
theorem C191_read (n : Nat) (stream : Bytes) (ps : List (Bool × List Poll))
    (h : (Read.run ps { stream := stream, room := n }).2 = some (.ok ())) :
    n ≤ stream.length ∧
      (Read.run ps { stream := stream, room := n }).1.got = stream.take n ∧
      (Read.run ps { stream := stream, room := n }).1.stream = stream.drop n := by
  obtain ⟨h1, h2, h3, _⟩ := read_keeps ps { stream := stream, room := n }
  generalize Read.run ps { stream := stream, room := n } = x at h h1 h2 h3 ⊢
  simp only [List.nil_append, List.length_nil, Nat.zero_add] at h1 h2
  have h4 := h3 h
  rw [h4, Nat.add_zero] at h2
  refine ⟨?_, ?_, ?_⟩
  · rw [← h1, List.length_append]; omega
  · rw [← h1, List.take_left' h2]
  · rw [← h1, List.drop_left' h2]

/-- **C191**, violated: a read that gives up keeps what it had taken: those bytes are gone from the
stream although the caller gets none of them. -/
theorem C191_given_up_violated (k : Nat) (hk : 0 < k) (n : Nat) (hn : k < n) (stream : Bytes)
    (hs : k ≤ stream.length) :
    Read.run [(false, [.ready k, .pending]), (true, [.ready (n - k)])]
        { stream := stream, room := n } =
      ({ stream := stream.drop k, got := stream.take k, room := n - k },
        some (.error .timeout)) := by
  have e : min k (min n stream.length) = k := by omega
  simp only [Read.run, Read.poll, readLoop, if_neg (show n ≠ 0 by omega), e,
    if_neg (show k ≠ 0 by omega), if_neg (show n - k ≠ 0 by omega), if_true, List.nil_append,
    Bool.false_eq_true, if_false]

/-- **C191**: it gives up for slowness only when its timer has fired. -/
theorem C191_timeout (r : Read) (ps : List (Bool × List Poll))
    (h : (Read.run ps r).2 = some (.error .timeout)) : ∃ p ∈ ps, p.1 = true :=
  (read_keeps ps r).2.2.2 h

theorem writeLoop_keeps (ps : List Poll) (w : Write) :
    (writeLoop ps w).1.sent ++ (writeLoop ps w).1.left = w.sent ++ w.left ∧
      ((writeLoop ps w).2 = some (.ok ()) → (writeLoop ps w).1.left = []) := by
  induction ps generalizing w with
  | nil => unfold writeLoop; split <;> simp_all
  | cons p ps ih =>
    unfold writeLoop
    split
    · simp_all
    · cases p with
      | pending => simp
      | error => simp
      | ready k =>
        simp only
        split
        · simp
        · obtain ⟨h1, h2⟩ := ih { sent := w.sent ++ w.left.take (min k w.left.length), left := w.left.drop (min k w.left.length) }
          exact ⟨by rw [h1]; simp, h2⟩

theorem write_keeps (ps : List (List Poll)) (w : Write) :
    (Write.run ps w).1.sent ++ (Write.run ps w).1.left = w.sent ++ w.left ∧
      ((Write.run ps w).2 = some (.ok ()) → (Write.run ps w).1.left = []) := by
  induction ps generalizing w with
  | nil => simp [Write.run]
  | cons p ps ih =>
    unfold Write.run
    have hk := writeLoop_keeps p w
    generalize writeLoop p w = x at hk ⊢
    obtain ⟨w', o⟩ := x
    cases o with
    | none => exact ⟨(ih w').1.trans hk.1, (ih w').2⟩
    | some o => exact hk

/-- **C191**: what a write puts on the wire is always the start of what was to be written, and all
of it once the write succeeds. -/
theorem C191_write (b : Bytes) (ps : List (List Poll)) :
    (∃ rest, (Write.run ps { left := b }).1.sent ++ rest = b) ∧
      ((Write.run ps { left := b }).2 = some (.ok ()) → (Write.run ps { left := b }).1.sent = b) := by
  obtain ⟨h1, h2⟩ := write_keeps ps { left := b }
  refine ⟨⟨_, by simpa using h1⟩, fun h => ?_⟩
  have := h2 h
  rw [this] at h1; simpa using h1

/-- **C191**: as long as the socket takes something every time it is asked, the write succeeds. -/
theorem C191_write_done (b : Bytes) (ks : List Nat) (hk : ∀ k ∈ ks, 0 < k)
    (hl : b.length ≤ ks.length) :
    (Write.run [ks.map .ready] { left := b }).2 = some (.ok ()) := by
  suffices H : ∀ (ks : List Nat) (w : Write), (∀ k ∈ ks, 0 < k) → w.left.length ≤ ks.length →
      (writeLoop (ks.map .ready) w).2 = some (.ok ()) by
    have := H ks { left := b } hk hl
    unfold Write.run
    generalize writeLoop (ks.map .ready) { left := b } = x at this ⊢
    obtain ⟨w', o⟩ := x
    simp only at this; subst this; rfl
  intro ks
  induction ks with
  | nil =>
    intro w _ hl
    have : w.left = [] := List.length_eq_zero_iff.1 (Nat.le_zero.1 hl)
    unfold writeLoop; simp [this]
  | cons k ks ih =>
    intro w hk hl
    unfold writeLoop
    split
    · rfl
    · next hne =>
      have hpos : 0 < w.left.length := List.length_pos_iff.2 hne
      have hk0 := hk k List.mem_cons_self
      simp only [List.map_cons]
      rw [if_neg (by omega)]
      exact ih _ (fun k hk' => hk k (List.mem_cons_of_mem _ hk')) (by
        simp only [List.length_drop, List.length_cons] at hl ⊢; omega)

/-- **C191**: likewise the read, as long as the bytes keep coming before the timer fires. -/
theorem C191_read_done (n : Nat) (stream : Bytes) (ks : List Nat) (hk : ∀ k ∈ ks, 0 < k)
    (hl : n ≤ ks.length) (hs : n ≤ stream.length) :
    (Read.run [(false, ks.map .ready)] { stream := stream, room := n }).2 = some (.ok ()) := by
  suffices H : ∀ (ks : List Nat) (r : Read), (∀ k ∈ ks, 0 < k) → r.room ≤ ks.length →
      r.room ≤ r.stream.length → (readLoop (ks.map .ready) r).2 = some (.ok ()) by
    have := H ks { stream := stream, room := n } hk hl hs
    unfold Read.run Read.poll
    simp only [Bool.false_eq_true, if_false]
    generalize readLoop (ks.map .ready) { stream := stream, room := n } = x at this ⊢
    obtain ⟨w', o⟩ := x
    simp only at this; subst this; rfl
  intro ks
  induction ks with
  | nil =>
    intro r _ hl _
    have : r.room = 0 := Nat.le_zero.1 hl
    unfold readLoop; simp [this]
  | cons k ks ih =>
    intro r hk hl hs
    unfold readLoop
    split
    · rfl
    · next hne =>
      have hk0 := hk k List.mem_cons_self
      simp only [List.map_cons]
      rw [if_neg (by omega)]
      exact ih _ (fun k hk' => hk k (List.mem_cons_of_mem _ hk'))
        (by simp only [List.length_cons] at hl ⊢; omega)
        (by simp only [List.length_drop] at hl ⊢; omega)

example : Read.run [(false, [.ready 2, .pending]), (false, [.ready 1, .ready 9])]
    { stream := [1, 2, 3, 4, 5, 6], room := 4 } =
    ({ stream := [5, 6], got := [1, 2, 3, 4], room := 0 }, some (.ok ())) := by decide +kernel
example := C191_given_up_violated 2 (by decide) 4 (by decide) [1, 2, 3, 4] (by decide)
example : Write.run [[.ready 2, .pending], [.ready 7]] { left := [1, 2, 3] } =
    ({ sent := [1, 2, 3], left := [] }, some (.ok ())) := by decide +kernel

end Emissary.Util
