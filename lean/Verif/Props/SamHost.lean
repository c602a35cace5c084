import Verif.Props.SamOptions
/-!
# C166 and C167: hosts, and datagrams that clients send

The specification of C166: a host is given as the id of a destination in base 32 with the ending `.b32.i2p`, as a name that ends in `.i2p`, or as a destination in base 64.
-/
namespace Emissary.SamParser

/-- What may stand before a host. -/
def schemes : List String := ["", "http://", "https://"]

theorem find_spec (t s : Str) : (∀ n, find t s = some n → n ≤ s.length ∧ t <+: s.drop n) ∧ (find t s = none → ¬ t <:+: s) := by
  induction s with
  | nil =>
    unfold find
    by_cases h : t = []
    · subst h
      simp
    · rw [if_neg h]
      exact ⟨fun n e => (by cases e), fun _ hi => h (List.infix_nil.mp hi)⟩
  | cons c s ih =>
    unfold find
    by_cases h : t.isPrefixOf (c :: s) = true
    · rw [if_pos h]
      refine ⟨fun n e => ?_, fun e => by cases e⟩
      cases e
      exact ⟨Nat.zero_le _, List.isPrefixOf_iff_prefix.mp h⟩
    · rw [if_neg h]
      refine ⟨fun n e => ?_, fun e hi => ?_⟩
      · cases hf : find t s with
        | none => rw [hf] at e; cases e
        | some m =>
          rw [hf] at e
          cases e
          obtain ⟨h1, h2⟩ := ih.1 m hf
          exact ⟨by simp; omega, by simpa using h2⟩
      · cases hf : find t s with
        | some m => rw [hf] at e; cases e
        | none =>
          rcases List.infix_cons_iff.mp hi with hp | hi
          · exact h (List.isPrefixOf_iff_prefix.mpr hp)
          · exact ih.2 hf hi

/-- The text that is looked for begins with a dot, and there is no dot before it. -/
theorem find_dot (t a x : Str) (ha : '.' ∉ a) : find ('.' :: t) (a ++ ('.' :: t) ++ x) = some a.length := by
  induction a with
  | nil =>
    rw [List.nil_append, List.cons_append]
    unfold find
    rw [if_pos (by rw [List.isPrefixOf_iff_prefix, ← List.cons_append]; exact List.prefix_append _ _)]
    rfl
  | cons c a ih =>
    have hc : c ≠ '.' := fun e => ha (by rw [e]; exact List.mem_cons_self)
    rw [List.cons_append, List.cons_append]
    unfold find
    rw [if_neg, ih fun h => ha (List.mem_cons_of_mem _ h)]
    · rfl
    · intro h
      rw [List.isPrefixOf_iff_prefix, List.cons_prefix_cons] at h
      exact hc h.1.symm

theorem start_scheme (p : String) (hp : p ∈ schemes) (t : Str) (ht : ':' ∉ t) : start (p.toList ++ t) = p.toList.length := by
  unfold schemes at hp
  simp only [List.mem_cons, List.not_mem_nil, or_false] at hp
  have h1 : ∀ (s : Str), ':' ∈ s → s.isPrefixOf t = false := by
    intro s hs
    cases h : s.isPrefixOf t with
    | false => rfl
    | true => exact absurd ((List.isPrefixOf_iff_prefix.mp h).subset hs) ht
  rcases hp with rfl | rfl | rfl
  · unfold start
    rw [show "".toList ++ t = t from rfl, h1 _ (by decide), h1 _ (by decide)]
    rfl
  · unfold start
    rw [if_pos (by rw [List.isPrefixOf_iff_prefix]; exact List.prefix_append _ _)]
    rfl
  · unfold start
    rw [if_neg, if_pos (by rw [List.isPrefixOf_iff_prefix]; exact List.prefix_append _ _)]
    · rfl
    · rw [List.isPrefixOf_iff_prefix]
      rintro ⟨z, h⟩
      have := congrArg (fun s => s.take 5) h
      revert this
      show ¬ ("http:".toList = "https".toList)
      decide

theorem host_b32 {D : Type} (e : Env D) (p : String) (hp : p ∈ schemes) (t x : Str) (ht : '.' ∉ t) (hc : ':' ∉ t) (hx : ':' ∉ x) (id : Bytes) (h : e.base32 t = some id) :
    host e (p.toList ++ t ++ ".b32.i2p".toList ++ x) = .ok (.b32 id) := by
  have hdot : '.' ∉ p.toList ++ t := by
    intro hm
    rcases List.mem_append.mp hm with hm | hm
    · unfold schemes at hp
      simp only [List.mem_cons, List.not_mem_nil, or_false] at hp
      rcases hp with rfl | rfl | rfl <;> revert hm <;> decide
    · exact ht hm
  have hf : find ".b32.i2p".toList (p.toList ++ t ++ ".b32.i2p".toList ++ x) = some (p.toList ++ t).length := find_dot "b32.i2p".toList (p.toList ++ t) x hdot
  have hs : start (p.toList ++ t ++ ".b32.i2p".toList ++ x) = p.toList.length := by
    rw [List.append_assoc, List.append_assoc]
    refine start_scheme p hp _ ?_
    intro hm
    rcases List.mem_append.mp hm with hm | hm
    · exact hc hm
    · rcases List.mem_append.mp hm with hm | hm
      · revert hm
        decide
      · exact hx hm
  unfold host
  rw [hf]
  dsimp only
  rw [hs]
  have hsl : slice (p.toList ++ t ++ ".b32.i2p".toList ++ x) p.toList.length (p.toList ++ t).length = some t := by
    unfold slice
    rw [if_pos ⟨by simp, by simp⟩]
    congr 1
    rw [List.append_assoc, List.append_assoc, List.drop_left]
    have : (p.toList ++ t).length - p.toList.length = t.length := by simp
    rw [this, List.take_left]
  rw [hsl]
  dsimp only
  rw [h]

/-- The id of a destination in base 32. -/
theorem C166_b32 {D : Type} (e : Env D) (p : String) (hp : p ∈ schemes) (t : Str) (ht : '.' ∉ t) (hc : ':' ∉ t) (id : Bytes) (h : e.base32 t = some id) :
    host e (p.toList ++ t ++ ".b32.i2p".toList) = .ok (.b32 id) := by
  have := host_b32 e p hp t [] ht hc nofun id h
  rwa [List.append_nil] at this

/-- What follows the ending is ignored: the name of another host is taken for the host. -/
theorem C166_ending_violated {D : Type} (e : Env D) (p : String) (hp : p ∈ schemes) (t x : Str) (ht : '.' ∉ t) (hc : ':' ∉ t) (hx : ':' ∉ x) (id : Bytes) (h : e.base32 t = some id) :
    host e (p.toList ++ t ++ ".b32.i2p".toList ++ x) = .ok (.b32 id) := host_b32 e p hp t x ht hc hx id h

/-- Text that is not the id of any destination is taken for one: an id has 32 bytes, but any number of bytes is accepted. -/
theorem C166_length_violated {D : Type} (e : Env D) (t : Str) (ht : '.' ∉ t) (hc : ':' ∉ t) (id : Bytes) (h : e.base32 t = some id) (hl : id.length ≠ 32) :
    ∃ i, host e (t ++ ".b32.i2p".toList) = .ok (.b32 i) ∧ i.length ≠ 32 := ⟨id, C166_b32 e "" (by decide) t ht hc id h, hl⟩

/-- A name. -/
theorem C166_name {D : Type} (e : Env D) (p : String) (hp : p ∈ schemes) (t : Str) (hc : ':' ∉ t) (hn : ¬ ".b32.i2p".toList <:+: p.toList ++ (t ++ ".i2p".toList)) :
    host e (p.toList ++ (t ++ ".i2p".toList)) = .ok (.name (t ++ ".i2p".toList)) := by
  have hs : start (p.toList ++ (t ++ ".i2p".toList)) = p.toList.length := by
    refine start_scheme p hp _ ?_
    intro hm
    rcases List.mem_append.mp hm with hm | hm
    · exact hc hm
    · revert hm
      decide
  unfold host
  cases hf : find ".b32.i2p".toList (p.toList ++ (t ++ ".i2p".toList)) with
  | some n =>
    exfalso
    obtain ⟨_, z, hz⟩ := (find_spec _ _).1 n hf
    exact hn ⟨(p.toList ++ (t ++ ".i2p".toList)).take n, z, by rw [List.append_assoc, hz, List.take_append_drop]⟩
  | none =>
    dsimp only
    rw [if_pos (by rw [List.isSuffixOf_iff_suffix, ← List.append_assoc]; exact List.suffix_append _ _), hs]
    have : slice (p.toList ++ (t ++ ".i2p".toList)) p.toList.length (p.toList ++ (t ++ ".i2p".toList)).length = some (t ++ ".i2p".toList) := by
      unfold slice
      rw [if_pos ⟨by simp, Nat.le_refl _⟩, List.drop_left]
      congr 1
      rw [List.take_of_length_le]
      rw [List.length_append (as := p.toList)]
      omega
    rw [this]

/-- A destination in base 64, which has no dots. -/
theorem C166_dest {D : Type} (e : Env D) (t : Str) (ht : '.' ∉ t) (raw : Bytes) (d : D) (more : Bytes) (h : e.base64 t = some raw) (hd : e.dest raw = some (d, more)) : host e t = .ok (.dest d) := by
  unfold host
  cases hf : find ".b32.i2p".toList t with
  | some n =>
    exfalso
    obtain ⟨_, z, hz⟩ := (find_spec _ _).1 n hf
    exact ht (List.mem_of_mem_drop (hz ▸ List.mem_append_left _ (by decide)))
  | none =>
    dsimp only
    rw [if_neg, h]
    · dsimp only
      rw [hd]
    · intro hs
      rw [List.isSuffixOf_iff_suffix] at hs
      exact ht (hs.subset (by decide))

theorem host_ok {D : Type} (e : Env D) (s : Str) : host e s ≠ .panic := by
  have hstart : ∀ n, find ".b32.i2p".toList s = some n → start s ≤ n := by
    intro n hn
    obtain ⟨h1, z, hz⟩ := (find_spec _ _).1 n hn
    have key : ∀ p : Str, p.isPrefixOf s = true → '.' ∉ p → p.length ≤ n := by
      intro p hp hd
      obtain ⟨w, hw⟩ := List.isPrefixOf_iff_prefix.mp hp
      apply Nat.le_of_not_lt
      intro hlt
      have hg : s[n]? = some '.' := by
        have : (s.drop n)[0]? = some '.' := by rw [← hz]; rfl
        rwa [List.getElem?_drop, Nat.add_zero] at this
      rw [← hw, List.getElem?_append_left hlt] at hg
      exact hd (List.mem_of_getElem? hg)
    unfold start
    split
    · rename_i h
      exact key _ h (by decide)
    · split
      · rename_i h
        exact key _ h (by decide)
      · exact Nat.zero_le _
  have hlen : start s ≤ s.length := by
    unfold start
    split
    · rename_i h
      exact (List.isPrefixOf_iff_prefix.mp h).length_le
    · split
      · rename_i h
        exact (List.isPrefixOf_iff_prefix.mp h).length_le
      · exact Nat.zero_le _
  unfold host
  cases hf : find ".b32.i2p".toList s with
  | some n =>
    dsimp only
    have : slice s (start s) n = some ((s.drop (start s)).take (n - start s)) := by
      unfold slice
      rw [if_pos ⟨hstart n hf, ((find_spec _ _).1 n hf).1⟩]
    rw [this]
    dsimp only
    split <;> exact nofun
  | none =>
    dsimp only
    split
    · have : slice s (start s) s.length = some ((s.drop (start s)).take (s.length - start s)) := by
        unfold slice
        rw [if_pos ⟨hlen, Nat.le_refl _⟩]
      rw [this]
      exact nofun
    · (repeat' split) <;> exact nofun

/-- No line that a client sends as a command stops the router. -/
theorem C166_no_panic {D : Type} (e : Env D) (s : Str) : parse e s ≠ .panic := by
  have hof : ∀ o : Option (Cmd D), Res.of o ≠ .panic := fun o => by cases o <;> exact nofun
  unfold parse
  split
  · exact nofun
  · dsimp only
    unfold command
    repeat' split
    all_goals first | exact hof _ | (intro h; cases h; done) | skip
    unfold connect
    split
    · rename_i d _ _
      split
      · exact nofun
      · exact nofun
      · rename_i hp
        exact absurd hp (host_ok e _)
    · exact nofun

/-! ## C167: datagrams that clients send -/

theorem position_first (c : UInt8) (a r : Bytes) (h : c ∉ a) : position c (a ++ c :: r) = some a.length := by
  unfold position
  rw [List.findIdx?_eq_some_iff_getElem]
  refine ⟨by simp, by simp, ?_⟩
  intro j hj
  rw [List.getElem_append_left hj]
  simp only [decide_eq_true_eq]
  exact fun e => h (e ▸ List.getElem_mem hj)

/-- A datagram is a version, the name of the session, the destination in base 64 and the data. -/
theorem C167_read_partial {D : Type} (e : Env D) (text : Bytes → Option Str) (v a t data : Bytes) (hv : v.length = 4) (ha : 32 ∉ a) (ht : 10 ∉ t) (id b64 : Str) (h1 : text a = some id) (h2 : text t = some b64)
    (raw : Bytes) (d : D) (more : Bytes) (h3 : e.base64 b64 = some raw) (h4 : e.dest raw = some (d, more)) :
    datagram e text (v ++ a ++ [32] ++ t ++ [10] ++ data) = .ok ⟨id, d, data⟩ := by
  have hb : v ++ a ++ [32] ++ t ++ [10] ++ data = v ++ (a ++ 32 :: (t ++ 10 :: data)) := by simp
  rw [hb]
  unfold datagram
  rw [if_neg (by rw [List.length_append]; omega)]
  have hd4 : (v ++ (a ++ 32 :: (t ++ 10 :: data))).drop 4 = a ++ 32 :: (t ++ 10 :: data) := by rw [← hv, List.drop_left]
  have hd5 : (v ++ (a ++ 32 :: (t ++ 10 :: data))).drop (a.length + 5) = t ++ 10 :: data := by
    rw [show a.length + 5 = 4 + (a.length + 1) by omega, ← List.drop_drop, hd4, show a ++ 32 :: (t ++ 10 :: data) = (a ++ [32]) ++ (t ++ 10 :: data) by simp, show a.length + 1 = (a ++ [32]).length by simp, List.drop_left]
  have hd6 : (v ++ (a ++ 32 :: (t ++ 10 :: data))).drop (a.length + t.length + 6) = data := by
    rw [show a.length + t.length + 6 = (a.length + 5) + (t.length + 1) by omega, ← List.drop_drop, hd5, show t ++ 10 :: data = (t ++ [10]) ++ data by simp, show t.length + 1 = (t ++ [10]).length by simp, List.drop_left]
  rw [hd4, position_first 32 a _ ha]
  dsimp only
  rw [if_neg (by simp only [List.length_append, List.length_cons]; omega), hd5, position_first 10 t _ ht]
  dsimp only
  rw [List.take_left, h1]
  dsimp only
  rw [List.take_left, h2]
  dsimp only
  rw [h3]
  dsimp only
  rw [h4]
  dsimp only
  rw [hd6]

/-- Every datagram of fewer than four bytes that anybody sends to the port stops the router, and no other datagram does. -/
theorem C167_panic_violated {D : Type} (e : Env D) (text : Bytes → Option Str) (b : Bytes) : datagram e text b = .panic ↔ b.length < 4 := by
  unfold datagram
  by_cases h : b.length < 4
  · rw [if_pos h]
    exact ⟨fun _ => h, fun _ => rfl⟩
  · rw [if_neg h]
    refine ⟨fun hp => ?_, fun hl => absurd hl h⟩
    exfalso
    cases hq : position 32 (b.drop 4) with
    | none => rw [hq] at hp; cases hp
    | some n =>
      rw [hq] at hp
      dsimp only at hp
      have hn : n < (b.drop 4).length := by
        unfold position at hq
        exact (List.findIdx?_eq_some_iff_getElem.mp hq).1
      rw [if_neg (by rw [List.length_drop] at hn; omega)] at hp
      revert hp
      (repeat' split) <;> exact nofun

end Emissary.SamParser
