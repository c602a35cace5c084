import Verif.Model.Primitives
import Verif.Lemmas.Codec
/-! Helper lemmas for the common structures. -/
namespace Emissary.Prim
open Emissary

theorem Env.mkKey_some {E : Env} {k k' : VKey} (h : E.mkKey k = some k') : k' = k ∧ E.keyOk k = true := by
  unfold Env.mkKey at h
  split at h
  · simp only [Option.some.injEq] at h; exact ⟨h.symm, by assumption⟩
  · cases h

theorem Env.mkKey_ok {E : Env} {k : VKey} (h : E.keyOk k = true) : E.mkKey k = some k := by
  simp [Env.mkKey, h]

theorem Env.check_some {E : Env} {k : VKey} {m s : Bytes} {u : Unit} (h : E.check k m s = some u) :
    E.verify k m s = true := by
  unfold Env.check at h
  split at h
  · assumption
  · cases h

theorem Env.check_ok {E : Env} {k : VKey} {m s : Bytes} (h : E.verify k m s = true) :
    E.check k m s = some () := by
  simp [Env.check, h]

theorem Str.parse_serialize {E : Env} {s : Str} (hl : s.length ≤ 255) (hu : E.utf8 s = true) (r : Bytes) :
    Str.parse E (Str.serialize s ++ r) = some (s, r) := by
  have h0 : s.length % 256 ^ 1 = s.length := Nat.mod_eq_of_lt (by omega)
  simp only [Str.parse, Str.serialize, List.append_assoc, beU_be, bind_some_pair, h0,
    takeN_append (Eq.refl s.length), hu, if_true]

theorem Str.parse_some {E : Env} {i r : Bytes} {s : Str} (h : Str.parse E i = some (s, r)) :
    i = Str.serialize s ++ r ∧ s.length ≤ 255 ∧ E.utf8 s = true := by
  simp only [Str.parse] at h
  obtain ⟨⟨n, r1⟩, e1, h⟩ := Option.bind_eq_some_iff.mp h
  obtain ⟨⟨x, r2⟩, e2, h⟩ := Option.bind_eq_some_iff.mp h
  simp only at h e2
  split at h
  · rename_i hu
    simp only [Option.some.injEq, Prod.mk.injEq] at h
    obtain ⟨rfl, rfl⟩ := h
    obtain ⟨rfl, b1⟩ := beU_some e1
    obtain ⟨rfl, rfl⟩ := takeN_some e2
    exact ⟨by simp [Str.serialize], by omega, hu⟩
  · cases h

/-- A mapping that fits the wire format. -/
def Mapping.Ok (E : Env) (m : Mapping) : Prop :=
  m.key.length ≤ 255 ∧ m.value.length ≤ 255 ∧ E.utf8 m.key = true ∧ E.utf8 m.value = true

theorem Mapping.serialize_length (m : Mapping) : m.serialize.length = m.serializedLen := by
  simp [Mapping.serialize, Mapping.serializedLen, Str.serialize]; omega

theorem Mapping.parse_serialize {E : Env} {m : Mapping} (h : m.Ok E) (r : Bytes) :
    Mapping.parse E (m.serialize ++ r) = some (m, r) := by
  obtain ⟨h1, h2, h3, h4⟩ := h
  simp only [Mapping.parse, Mapping.serialize, List.append_assoc, Str.parse_serialize h1 h3,
    Str.parse_serialize h2 h4, beU_be, bind_some_pair]
  rfl

theorem Mapping.parse_some {E : Env} {i r : Bytes} {m : Mapping} (h : Mapping.parse E i = some (m, r)) :
    (∃ a b, i = Str.serialize m.key ++ be 1 a ++ Str.serialize m.value ++ be 1 b ++ r) ∧ m.Ok E := by
  simp only [Mapping.parse] at h
  obtain ⟨⟨k, r1⟩, e1, h⟩ := Option.bind_eq_some_iff.mp h
  obtain ⟨⟨a, r2⟩, e2, h⟩ := Option.bind_eq_some_iff.mp h
  obtain ⟨⟨v, r3⟩, e3, h⟩ := Option.bind_eq_some_iff.mp h
  obtain ⟨⟨b, r4⟩, e4, h⟩ := Option.bind_eq_some_iff.mp h
  simp only [Option.pure_def, Option.some.injEq, Prod.mk.injEq] at h
  obtain ⟨rfl, rfl⟩ := h
  obtain ⟨rfl, k1, k2⟩ := Str.parse_some e1
  obtain ⟨rfl, _⟩ := beU_some e2
  obtain ⟨rfl, v1, v2⟩ := Str.parse_some e3
  obtain ⟨rfl, _⟩ := beU_some e4
  exact ⟨⟨a, b, by simp⟩, k1, v1, k2, v2⟩

theorem Mapping.serializedLen_le {E : Env} {m : Mapping} (h : m.Ok E) :
    4 ≤ m.serializedLen ∧ m.serializedLen ≤ 514 := by
  obtain ⟨h1, h2, _⟩ := h
  simp only [Mapping.serializedLen]; omega

theorem Mapping.flatten_length (ms : List Mapping) :
    (ms.map Mapping.serialize).flatten.length = (ms.map Mapping.serializedLen).sum := by
  induction ms with
  | nil => rfl
  | cons m t ih => simp [ih, Mapping.serialize_length]

theorem Mapping.parseLoop_serialize {E : Env} (ms : List Mapping) (h : ∀ m ∈ ms, m.Ok E) (r : Bytes)
    (fuel : Nat) (hf : (ms.map Mapping.serializedLen).sum ≤ fuel) :
    Mapping.parseLoop E fuel (ms.map Mapping.serializedLen).sum ((ms.map Mapping.serialize).flatten ++ r)
      = some (ms, r) := by
  induction ms generalizing fuel with
  | nil => unfold Mapping.parseLoop; simp
  | cons m t ih =>
    have hm := h m (by simp)
    have hb := Mapping.serializedLen_le hm
    simp only [List.map_cons, List.sum_cons] at hf
    have e0 : m.serializedLen % 65536 = m.serializedLen := Nat.mod_eq_of_lt (by omega)
    obtain ⟨fuel, rfl⟩ : ∃ f, fuel = f + 1 := ⟨fuel - 1, by omega⟩
    have ht := ih (fun x hx => h x (List.mem_cons_of_mem _ hx)) fuel (by omega)
    unfold Mapping.parseLoop
    rw [if_neg (by simp only [List.map_cons, List.sum_cons]; omega)]
    simp only [List.map_cons, List.sum_cons, List.flatten_cons, List.append_assoc,
      Mapping.parse_serialize hm, bind_some_pair, e0, Nat.add_sub_cancel_left, ht]
    rfl

theorem Mapping.parseMulti_serialize {E : Env} (ms : List Mapping) (h : ∀ m ∈ ms, m.Ok E)
    (hs : (ms.map Mapping.serializedLen).sum < 65536) (r : Bytes) :
    Mapping.parseMulti E (Mapping.serializeMulti ms ++ r) = some (ms, r) := by
  have h0 : (Mapping.serializeMulti ms ++ r).isEmpty = false := by
    simp [Mapping.serializeMulti, List.isEmpty_eq_false_iff, be]
  have h1 : ((ms.map Mapping.serialize).flatten.length) % 256 ^ 2 = (ms.map Mapping.serializedLen).sum := by
    rw [Mapping.flatten_length]; exact Nat.mod_eq_of_lt (by omega)
  unfold Mapping.parseMulti
  rw [h0]
  simp only [Bool.false_eq_true, if_false, Mapping.serializeMulti, List.append_assoc, beU_be, bind_some_pair, h1]
  exact Mapping.parseLoop_serialize ms h r _ (Nat.le_refl _)

theorem Mapping.parseLoop_suffix {E : Env} {fuel n : Nat} {i r : Bytes} {ms : List Mapping}
    (h : Mapping.parseLoop E fuel n i = some (ms, r)) : r <:+ i := by
  induction fuel generalizing n i ms with
  | zero =>
    unfold Mapping.parseLoop at h
    split at h
    · simp only [Option.some.injEq, Prod.mk.injEq] at h; rw [h.2]; exact List.suffix_refl _
    · cases h
  | succ fuel ih =>
    unfold Mapping.parseLoop at h
    split at h
    · simp only [Option.some.injEq, Prod.mk.injEq] at h; rw [h.2]; exact List.suffix_refl _
    · obtain ⟨⟨m, r1⟩, e1, h⟩ := Option.bind_eq_some_iff.mp h
      obtain ⟨⟨t, r2⟩, e2, h⟩ := Option.bind_eq_some_iff.mp h
      simp only [Option.pure_def, Option.some.injEq, Prod.mk.injEq] at h
      obtain ⟨rfl, rfl⟩ := h
      obtain ⟨⟨a, b, rfl⟩, _⟩ := Mapping.parse_some e1
      exact (ih e2).trans (List.suffix_append _ _)

theorem Mapping.parseMulti_suffix {E : Env} {i r : Bytes} {ms : List Mapping}
    (h : Mapping.parseMulti E i = some (ms, r)) : r <:+ i := by
  unfold Mapping.parseMulti at h
  split at h
  · simp only [Option.some.injEq, Prod.mk.injEq] at h; rw [← h.2]; exact List.nil_suffix
  · obtain ⟨⟨n, r1⟩, e1, h⟩ := Option.bind_eq_some_iff.mp h
    obtain ⟨rfl, _⟩ := beU_some e1
    exact (Mapping.parseLoop_suffix h).trans (List.suffix_append _ _)

/-! ## Options as maps -/

theorem strLt_irrefl (a : Bytes) : strLt a a = false := by
  induction a with
  | nil => rfl
  | cons x t ih => simp [strLt, ih, UInt8.lt_irrefl]

theorem strLt_asymm {a b : Bytes} (h : strLt a b = true) : strLt b a = false := by
  induction a generalizing b with
  | nil => cases b with
    | nil => rfl
    | cons _ _ => rfl
  | cons x t ih =>
    cases b with
    | nil => cases h
    | cons y u =>
      simp only [strLt] at h ⊢
      split at h
      · rename_i hxy
        have : ¬ y < x := by
          intro hc; exact absurd (UInt8.lt_trans hxy hc) (UInt8.lt_irrefl _)
        simp [this, hxy]
      · rename_i hxy
        split at h
        · cases h
        · rename_i hyx
          simp [hxy, hyx, ih h]

/-- Keys strictly increasing. -/
def Options.Sorted : Options → Prop
  | [] => True
  | x :: t => (∀ y ∈ t, strLt x.key y.key = true) ∧ Options.Sorted t

theorem Options.ins_last {o : Options} {m : Mapping} (h : ∀ x ∈ o, strLt x.key m.key = true) :
    Options.ins m o = o ++ [m] := by
  induction o with
  | nil => rfl
  | cons x t ih =>
    have hx := h x (by simp)
    have hne : m.key ≠ x.key := by
      intro he; rw [he, strLt_irrefl] at hx; cases hx
    simp only [Options.ins, hne, if_false, strLt_asymm hx, Bool.false_eq_true, List.cons_append,
      ih (fun y hy => h y (List.mem_cons_of_mem _ hy))]

theorem Options.foldl_sorted (o acc : Options) (h : Options.Sorted o)
    (ha : ∀ x ∈ acc, ∀ y ∈ o, strLt x.key y.key = true) :
    o.foldl (fun o m => Options.ins m o) acc = acc ++ o := by
  induction o generalizing acc with
  | nil => simp
  | cons x t ih =>
    simp only [List.foldl_cons]
    rw [Options.ins_last (fun y hy => ha y hy x (by simp)), ih _ h.2]
    · simp
    · intro y hy z hz
      rcases List.mem_append.mp hy with hy | hy
      · exact ha y hy z (List.mem_cons_of_mem _ hz)
      · simp only [List.mem_cons, List.not_mem_nil, or_false] at hy
        subst hy; exact h.1 z hz

theorem Options.ofList_sorted {o : Options} (h : Options.Sorted o) : Options.ofList o = o := by
  simpa [Options.ofList] using Options.foldl_sorted o [] h (by simp)

theorem strLt_trans {a b c : Bytes} (h1 : strLt a b = true) (h2 : strLt b c = true) : strLt a c = true := by
  induction a generalizing b c with
  | nil => cases b with
    | nil => cases h1
    | cons y u => cases c with
      | nil => cases h2
      | cons _ _ => rfl
  | cons x t ih =>
    cases b with
    | nil => cases h1
    | cons y u =>
      cases c with
      | nil => cases h2
      | cons z v =>
        simp only [strLt] at h1 h2 ⊢
        by_cases hxy : x < y
        · by_cases hyz : y < z
          · rw [if_pos (UInt8.lt_trans hxy hyz)]
          · rw [if_neg hyz] at h2
            by_cases hzy : z < y
            · rw [if_pos hzy] at h2; cases h2
            · have : y = z := by
                apply UInt8.toNat_inj.mp
                simp only [UInt8.lt_iff_toNat_lt] at hyz hzy; omega
              subst this; rw [if_pos hxy]
        · rw [if_neg hxy] at h1
          by_cases hyx : y < x
          · rw [if_pos hyx] at h1; cases h1
          · have : x = y := by
              apply UInt8.toNat_inj.mp
              simp only [UInt8.lt_iff_toNat_lt] at hxy hyx; omega
            subst this
            rw [if_neg hyx] at h1
            by_cases hyz : x < z
            · rw [if_pos hyz]
            · rw [if_neg hyz] at h2 ⊢
              by_cases hzy : z < x
              · rw [if_pos hzy] at h2; cases h2
              · rw [if_neg hzy] at h2 ⊢; exact ih h1 h2

theorem strLt_total {a b : Bytes} (h1 : strLt a b = false) (h2 : a ≠ b) : strLt b a = true := by
  induction a generalizing b with
  | nil => cases b with
    | nil => exact absurd rfl h2
    | cons _ _ => cases h1
  | cons x t ih =>
    cases b with
    | nil => rfl
    | cons y u =>
      simp only [strLt] at h1 ⊢
      by_cases hxy : x < y
      · rw [if_pos hxy] at h1; cases h1
      · rw [if_neg hxy] at h1
        by_cases hyx : y < x
        · rw [if_pos hyx]
        · rw [if_neg hyx] at h1
          rw [if_neg hyx, if_neg hxy]
          have : x = y := by
            apply UInt8.toNat_inj.mp
            simp only [UInt8.lt_iff_toNat_lt] at hxy hyx; omega
          subst this
          exact ih h1 (fun he => h2 (by rw [he]))

theorem Options.mem_ins {o : Options} {m x : Mapping} (h : x ∈ Options.ins m o) : x = m ∨ x ∈ o := by
  induction o with
  | nil => simpa [Options.ins] using h
  | cons y t ih =>
    simp only [Options.ins] at h
    split at h
    · rcases List.mem_cons.mp h with h | h
      · exact .inl h
      · exact .inr (List.mem_cons_of_mem _ h)
    · split at h
      · rcases List.mem_cons.mp h with h | h
        · exact .inl h
        · exact .inr h
      · rcases List.mem_cons.mp h with h | h
        · exact .inr (by rw [h]; simp)
        · rcases ih h with h | h
          · exact .inl h
          · exact .inr (List.mem_cons_of_mem _ h)

theorem Options.sorted_ins {o : Options} (m : Mapping) (h : Options.Sorted o) : Options.Sorted (Options.ins m o) := by
  induction o with
  | nil => simp [Options.ins, Options.Sorted]
  | cons y t ih =>
    simp only [Options.ins]
    split
    · rename_i he
      exact ⟨fun z hz => by rw [he]; exact h.1 z hz, h.2⟩
    · rename_i hne
      split
      · rename_i hlt
        refine ⟨fun z hz => ?_, h⟩
        rcases List.mem_cons.mp hz with rfl | hz
        · exact hlt
        · exact strLt_trans hlt (h.1 z hz)
      · rename_i hlt
        refine ⟨fun z hz => ?_, ih h.2⟩
        rcases Options.mem_ins hz with rfl | hz
        · exact strLt_total (by simpa using hlt) hne
        · exact h.1 z hz

theorem Options.sorted_foldl (ms : List Mapping) (o : Options) (h : Options.Sorted o) :
    Options.Sorted (ms.foldl (fun o m => Options.ins m o) o) := by
  induction ms generalizing o with
  | nil => exact h
  | cons m t ih => exact ih _ (Options.sorted_ins m h)

theorem Options.sorted_ofList (ms : List Mapping) : Options.Sorted (Options.ofList ms) :=
  Options.sorted_foldl ms [] trivial

theorem Options.get_cons (x : Mapping) (t : Options) (k : Str) :
    Options.get (x :: t) k = if x.key = k then some x.value else Options.get t k := by
  unfold Options.get
  by_cases h : x.key = k <;> simp [h]

theorem Options.get_ins (o : Options) (m : Mapping) (k : Str) (hs : Options.Sorted o) :
    Options.get (Options.ins m o) k = if m.key = k then some m.value else Options.get o k := by
  induction o with
  | nil => simp [Options.ins, Options.get_cons]
  | cons y t ih =>
    simp only [Options.ins]
    split
    · rename_i he
      rw [Options.get_cons, Options.get_cons]
      by_cases hk : m.key = k
      · simp [hk]
      · simp [hk, he ▸ hk]
    · rename_i hne
      split
      · rw [Options.get_cons]
      · rw [Options.get_cons, Options.get_cons, ih hs.2]
        by_cases hk : m.key = k
        · subst hk; simp [Ne.symm hne]
        · simp [hk]

/-- The map of a list holds, for each key, the value of its last occurrence. -/
theorem Options.get_foldl (ms : List Mapping) (o : Options) (k : Str) (hs : Options.Sorted o) :
    Options.get (ms.foldl (fun o m => Options.ins m o) o) k
      = ((ms.reverse.find? (fun m => m.key = k)).map (·.value)).or (Options.get o k) := by
  induction ms generalizing o with
  | nil => simp
  | cons m t ih =>
    simp only [List.foldl_cons, List.reverse_cons, List.find?_append]
    rw [ih _ (Options.sorted_ins m hs), Options.get_ins o m k hs]
    cases (List.find? (fun m => decide (m.key = k)) t.reverse) with
    | some x => simp
    | none => by_cases hk : m.key = k <;> simp [hk]

end Emissary.Prim
