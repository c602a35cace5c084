import Verif.Props.SamParser
/-!
# C165: numbers in options, and options that are not read as they are written
-/
namespace Emissary.SamParser

/-- The decimal digits of a number. -/
def digits (n : Nat) : Str := Nat.toDigits 10 n

theorem digitChar_lt (d : Nat) (h : d < 10) : digit (Nat.digitChar d) = some d := by
  have : d = 0 ∨ d = 1 ∨ d = 2 ∨ d = 3 ∨ d = 4 ∨ d = 5 ∨ d = 6 ∨ d = 7 ∨ d = 8 ∨ d = 9 := by omega
  rcases this with rfl | rfl | rfl | rfl | rfl | rfl | rfl | rfl | rfl | rfl <;> decide

theorem number_append (a b : Str) : ∀ n, number n (a ++ b) = (number n a).bind fun m => number m b := by
  induction a with
  | nil => intro n; rfl
  | cons c a ih =>
    intro n
    have h : ∀ m s, number m (c :: s) = match digit c with
        | none => none
        | some d => if m * 10 + d < 65536 then number (m * 10 + d) s else none := fun _ _ => rfl
    rw [List.cons_append, h, h]
    cases digit c with
    | none => rfl
    | some d =>
      dsimp only
      split
      · exact ih _
      · rfl

theorem number_digits (n : Nat) : n < 65536 → number 0 (digits n) = some n := by
  unfold digits
  induction n using Nat.strongRecOn with
  | ind n ih =>
    intro h
    by_cases hn : n < 10
    · rw [Nat.toDigits_of_lt_base hn]
      unfold number
      rw [digitChar_lt n hn]
      dsimp only
      rw [if_pos (by omega)]
      simp [number]
    · have hd : Nat.toDigits 10 n = Nat.toDigits 10 (n / 10) ++ [Nat.digitChar (n % 10)] := by
        have := Nat.toDigits_append_toDigits (b := 10) (n := n / 10) (d := n % 10) (by decide) (by omega) (by omega)
        rw [Nat.toDigits_of_lt_base (n := n % 10) (by omega)] at this
        rw [this]
        congr 1
        omega
      rw [hd, number_append, ih (n / 10) (by omega) (by omega)]
      show number (n / 10) [Nat.digitChar (n % 10)] = some n
      unfold number
      rw [digitChar_lt _ (by omega)]
      dsimp only
      have e : n / 10 * 10 + n % 10 = n := by omega
      rw [e, if_pos h]
      rfl

theorem C165_forward {D : Type} (e : Env D) (os : List Opt) (ho : ∀ o ∈ os, o.Ok) (id : Str) (n : Nat) (hid : last os "ID" = some id) (hn : n < 65536) (hp : last os "PORT" = some (digits n)) :
    ∃ opts, parse e (line "STREAM" "FORWARD" os) = .ok (.forward id n opts) ∧ ∀ x : String, AMap.get opts x.toList = last os x := by
  rw [parse_plain e _ _ (by decide) (by decide) os ho]
  unfold command
  rw [if_neg (by decide), if_neg (by decide), if_neg (by decide), if_neg (by decide), if_pos ⟨rfl, rfl⟩]
  unfold forward
  rw [get_last, get_last, hid, hp]
  dsimp only
  have hport : port (digits n) = some n := by
    have hnum := number_digits n hn
    cases hds : digits n with
    | nil => exact absurd hds (by unfold digits; exact Nat.toDigits_ne_nil)
    | cons c r =>
      rw [hds] at hnum
      have hc : c ≠ '+' := by
        rintro rfl
        unfold number at hnum
        rw [show digit '+' = none by decide] at hnum
        cases hnum
      unfold port
      split
      · rename_i h; cases h
      · rename_i h; cases h; exact absurd rfl hc
      · rename_i h; cases h; exact absurd rfl hc
      · exact hnum
  rw [hport]
  exact ⟨_, rfl, get_last os⟩

theorem no_option (k x : Str) (hk : IsKey k) : keyValue (k ++ '-' :: x) = none := by
  unfold keyValue
  rw [key_text hk _ (by intro c hc; simp at hc; subst hc; decide)]
  dsimp only
  rw [if_neg (by decide)]

/-- An option whose key has a hyphen makes the router ignore it and all options that follow, without a word: the command is carried out as if they were not there. -/
theorem C165_hyphen_violated {D : Type} (e : Env D) (w sub : String) (hw : w.toList ∈ words) (hs : sub.toList ∈ subwords) (os : List Opt) (ho : ∀ o ∈ os, o.Ok) (k x : Str) (hk : IsKey k) :
    parse e (line w sub os ++ ' ' :: (k ++ '-' :: x)) = parse e (line w sub os) := by
  rw [parse_plain e w sub hw hs os ho, parse_line e w sub hw hs os ho _ (by simp)]
  rw [List.dropWhile_cons, if_pos (by decide), key_head hk]
  exact no_option k x hk

/-- A value with a quote in it is read with the backslash before the quote. -/
theorem C165_escaped_violated {D : Type} (e : Env D) (a b : Str) (ha : ∀ c ∈ a, c ≠ '"' ∧ c ≠ '\\') (hb : ∀ c ∈ b, c ≠ '"' ∧ c ≠ '\\') :
    parse e ("NAMING LOOKUP NAME=\"".toList ++ (a ++ '\\' :: '"' :: (b ++ ['"']))) = .ok (.lookup (a ++ '\\' :: '"' :: b)) := by
  have hbody : ∀ a : Str, (∀ c ∈ a, c ≠ '"' ∧ c ≠ '\\') → body (a ++ '\\' :: '"' :: (b ++ ['"'])) = some (a ++ '\\' :: '"' :: b, ['"']) := by
    intro a
    induction a with
    | nil =>
      intro _
      rw [List.nil_append, body.eq_def]
      dsimp only
      rw [if_neg (by decide), if_pos rfl]
      rw [if_pos (.inl rfl), body_plain b [] hb]
      rfl
    | cons c a ih =>
      intro h
      obtain ⟨h1, h2⟩ := h c List.mem_cons_self
      rw [List.cons_append, body.eq_def]
      dsimp only
      rw [if_neg h1, if_neg h2, ih fun d hd => h d (List.mem_cons_of_mem _ hd)]
      rfl
  have hkey : key ("NAME=\"".toList ++ (a ++ '\\' :: '"' :: (b ++ ['"']))) = some ("NAME".toList, '=' :: '"' :: (a ++ '\\' :: '"' :: (b ++ ['"']))) :=
    key_text (k := "NAME".toList) ⟨'N', "AME".toList, rfl, .inl (by decide), by decide⟩ ('=' :: '"' :: (a ++ '\\' :: '"' :: (b ++ ['"']))) (by intro c hc; simp at hc; subst hc; decide)
  have hkv : keyValue ("NAME=\"".toList ++ (a ++ '\\' :: '"' :: (b ++ ['"']))) = some (("NAME".toList, a ++ '\\' :: '"' :: b), []) := by
    unfold keyValue
    rw [hkey]
    dsimp only
    rw [if_pos rfl]
    have : quoted ('"' :: (a ++ '\\' :: '"' :: (b ++ ['"']))) = some (a ++ '\\' :: '"' :: b, []) := by
      unfold quoted
      dsimp only
      rw [if_pos rfl, hbody a ha]
      simp
    unfold value
    rw [this]
    rfl
  have h1 : ∀ t ∈ words, ∀ u ∈ words, u ≠ t → ¬ u <+: t ∧ ¬ t <+: u := by decide +kernel
  have h2 : ∀ t ∈ subwords, ∀ u ∈ subwords, u ≠ t → ¬ u <+: t ∧ ¬ t <+: u := by decide +kernel
  generalize hz : a ++ '\\' :: '"' :: (b ++ ['"']) = z at hkv
  have e1 : "NAMING LOOKUP NAME=\"".toList ++ z = "NAMING".toList ++ (' ' :: ("LOOKUP".toList ++ (' ' :: ("NAME=\"".toList ++ z)))) := rfl
  rw [e1]
  unfold parse
  rw [oneOf_self words "NAMING".toList _ (by decide) (h1 _ (by decide))]
  dsimp only
  rw [show ∀ s, optBlank (' ' :: s) = s from fun _ => rfl]
  unfold optOneOf
  rw [oneOf_self subwords "LOOKUP".toList _ (by decide) (h2 _ (by decide))]
  dsimp only
  rw [show ∀ s, optBlank (' ' :: s) = s from fun _ => rfl]
  have hp : ∀ n, pairs (n + 1 + 1) ("NAME=\"".toList ++ z) = ([("NAME".toList, a ++ '\\' :: '"' :: b)], []) := by
    intro n
    unfold pairs
    have : ("NAME=\"".toList ++ z).dropWhile isBlank = "NAME=\"".toList ++ z := key_head (k := "NAME".toList) ⟨'N', "AME".toList, rfl, .inl (by decide), by decide⟩ ('=' :: '"' :: z)
    rw [this, hkv]
    dsimp only
    have : pairs (n + 1) [] = ([], []) := rfl
    rw [this]
  have hlen : ("NAME=\"".toList ++ z).length = (z.length + 4) + 1 + 1 := by simp
  rw [hlen, hp]
  rfl

/-- An empty value in quotes is read as the two quotes. -/
theorem C165_empty_violated {D : Type} (e : Env D) : parse e "NAMING LOOKUP NAME=\"\"".toList = .ok (.lookup "\"\"".toList) := by
  have hw : oneOf words "NAMING LOOKUP NAME=\"\"".toList = some ("NAMING".toList, " LOOKUP NAME=\"\"".toList) := by decide +kernel
  have hs : optOneOf subwords (optBlank " LOOKUP NAME=\"\"".toList) = (some "LOOKUP".toList, " NAME=\"\"".toList) := by decide +kernel
  have hp : pairs (optBlank " NAME=\"\"".toList).length (optBlank " NAME=\"\"".toList) = ([("NAME".toList, "\"\"".toList)], []) := by decide +kernel
  unfold parse
  rw [hw]
  dsimp only
  rw [hs]
  dsimp only
  rw [hp]
  unfold command
  rw [if_neg (by decide), if_neg (by decide), if_neg (by decide), if_neg (by decide), if_neg (by decide), if_pos ⟨rfl, rfl⟩]
  rfl

/-- The characters with the property White_Space of Unicode. -/
def whiteSpace : List Nat :=
  [9, 10, 11, 12, 13, 32, 0x85, 0xA0, 0x1680, 0x2000, 0x2001, 0x2002, 0x2003, 0x2004, 0x2005, 0x2006, 0x2007, 0x2008, 0x2009, 0x200A, 0x2028, 0x2029, 0x202F, 0x205F, 0x3000]

/-- A value without quotes ends exactly before the first white space. -/
theorem C165_value_ends (v : Str) (rest : Str) (hv : v ≠ []) (h : ∀ c ∈ v, c.toNat ∉ whiteSpace) (q : v.head? ≠ some '"') (hr : ∀ c ∈ rest.head?, c.toNat ∈ whiteSpace) :
    value (v ++ rest) = some (v, rest) := by
  have key : ∀ c, isSpace c = decide (c.toNat ∈ whiteSpace) := by
    intro c
    rw [Bool.eq_iff_iff]
    simp only [isSpace, whiteSpace, decide_eq_true_eq, List.mem_cons, List.not_mem_nil, or_false, Bool.or_eq_true, Bool.and_eq_true, beq_iff_eq]
    omega
  have h2 : ∀ c ∈ v, isSpace c = false := fun c hc => by rw [key]; simpa using h c hc
  have h3 : ∀ c ∈ rest.head?, isSpace c = true := fun c hc => by rw [key]; simpa using hr c hc
  have := value_text v rest false hv ⟨h2, q⟩ h3
  exact this

example := C165_value_ends "abc".toList "\tID=x".toList (by decide) (by decide) (by decide) (by decide)

end Emissary.SamParser
