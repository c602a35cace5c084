import Verif.Model.Start
import Verif.Model.Config
/-!
# The start of the program (C268, C269)
-/
namespace Emissary.Start
open Emissary

/-! ## C268: the log option -/

/-- A group of the option: some targets and their level. -/
structure Group where
  first : Str
  more : List Str
  level : Str

/-- Strings joined with a character between them. -/
def join (c : Char) : List Str → Str
  | [] => []
  | [a] => a
  | a :: l => a ++ c :: join c l

/-- How a user writes a group: the targets with commas between them, and the level after the last. -/
def Group.write (g : Group) : Str := join ',' (g.first :: g.more) ++ '=' :: g.level

/-- A word without the characters that separate words. -/
def Plain (s : Str) : Prop := ',' ∉ s ∧ '=' ∉ s

def Group.Plain (g : Group) : Prop := Start.Plain g.first ∧ (∀ t ∈ g.more, Start.Plain t) ∧ Start.Plain g.level

theorem splitAt_ne (c : Char) (s : Str) : splitAt c s ≠ [] := by
  cases s with
  | nil => simp [splitAt]
  | cons x s => simp only [splitAt]; split; · simp
                split <;> simp

theorem splitAt_plain (c : Char) (s : Str) (h : c ∉ s) : splitAt c s = [s] := by
  induction s with
  | nil => rfl
  | cons x s ih =>
    simp only [List.mem_cons, not_or] at h
    simp only [splitAt, if_neg (Ne.symm h.1), ih h.2]

theorem splitAt_append (c : Char) (a b : Str) (h : c ∉ a) : splitAt c (a ++ c :: b) = a :: splitAt c b := by
  induction a with
  | nil => simp [splitAt]
  | cons x a ih =>
    simp only [List.mem_cons, not_or] at h
    simp only [List.cons_append, splitAt, if_neg (Ne.symm h.1), ih h.2]

theorem splitAt_join (c : Char) (l : List Str) (h : ∀ s ∈ l, c ∉ s) (hl : l ≠ []) : splitAt c (join c l) = l := by
  induction l with
  | nil => exact absurd rfl hl
  | cons a l ih =>
    cases l with
    | nil => exact splitAt_plain c a (h a (by simp))
    | cons b l =>
      show splitAt c (a ++ c :: join c (b :: l)) = _
      rw [splitAt_append c a _ (h a (by simp)), ih (fun s hs => h s (by simp_all)) (by simp)]

/-- The words of a group. -/
def Group.words (g : Group) : List Str := (g.first :: g.more).dropLast ++ [(g.first :: g.more).getLast (by simp) ++ '=' :: g.level]

theorem join_snoc (c : Char) (l : List Str) (x t : Str) : join c (l ++ [x]) ++ t = join c (l ++ [x ++ t]) := by
  induction l with
  | nil => rfl
  | cons a l ih =>
    cases l with
    | nil => simp [join]
    | cons b l => simpa [join] using ih

theorem join_append (c : Char) (l m : List Str) (hl : l ≠ []) (hm : m ≠ []) : join c (l ++ m) = join c l ++ c :: join c m := by
  induction l with
  | nil => exact absurd rfl hl
  | cons a l ih =>
    cases l with
    | nil => cases m with
      | nil => exact absurd rfl hm
      | cons b m => rfl
    | cons b l => simpa [join] using ih (by simp)

theorem write_words (g : Group) : g.write = join ',' g.words := by
  unfold Group.write Group.words
  rw [← join_snoc, List.dropLast_concat_getLast]

/-- What a user means by a list of groups: each target gets the level of its group. -/
def means (level : Str → Option L) (gs : List Group) : Option (List (Str × L)) :=
  (gs.mapM fun g => (level g.level).map fun v => (g.first :: g.more).map (·, v)).map List.flatten

theorem loop_plain (level : Str → Option L) (ws : List Str) (h : ∀ w ∈ ws, '=' ∉ w) (rest names : List Str) (out : List (Str × L)) :
    logLoop level (ws ++ rest) names out = logLoop level rest (names ++ ws) out := by
  induction ws generalizing names with
  | nil => simp
  | cons w ws ih =>
    have := splitAt_plain '=' w (h w (by simp))
    simp only [List.cons_append, logLoop, this]
    rw [ih (fun x hx => h x (by simp [hx]))]
    simp

theorem loop_group (level : Str → Option L) (g : Group) (hg : g.Plain) (rest : List Str) (out : List (Str × L)) :
    logLoop level (g.words ++ rest) [] out =
      match level g.level with
      | none => none
      | some v => logLoop level rest [] (out ++ (g.first :: g.more).map (·, v)) := by
  have hall : ∀ t ∈ g.first :: g.more, Start.Plain t := by
    intro t ht
    rcases List.mem_cons.1 ht with rfl | ht
    · exact hg.1
    · exact hg.2.1 t ht
  unfold Group.words
  rw [List.append_assoc, loop_plain level _ (fun w hw => (hall w (List.dropLast_subset _ hw)).2)]
  have hlast := (hall _ (List.getLast_mem (l := g.first :: g.more) (by simp))).2
  have e : splitAt '=' ((g.first :: g.more).getLast (by simp) ++ '=' :: g.level) = [(g.first :: g.more).getLast (by simp), g.level] := by
    rw [splitAt_append _ _ _ hlast, splitAt_plain _ _ hg.2.2.2]
  simp only [List.singleton_append, logLoop, e, List.nil_append, List.dropLast_concat_getLast]
  cases level g.level <;> rfl

theorem loop_groups (level : Str → Option L) (gs : List Group) (hg : ∀ g ∈ gs, g.Plain) (rest : List Str) (hr : ∀ w ∈ rest, '=' ∉ w) (out : List (Str × L)) :
    logLoop level (gs.flatMap Group.words ++ rest) [] out = (means level gs).map (out ++ ·) := by
  induction gs generalizing out with
  | nil =>
    have := loop_plain level rest hr [] [] out
    rw [List.append_nil] at this
    simp [means, this, logLoop]
  | cons g gs ih =>
    rw [List.flatMap_cons, List.append_assoc, loop_group level g (hg g (by simp))]
    cases hl : level g.level with
    | none => simp [means, hl, List.mapM_cons]
    | some v =>
      dsimp only
      rw [ih (fun x hx => hg x (by simp [hx]))]
      simp only [means, List.mapM_cons, hl, Option.map_some]
      cases hm : gs.mapM (fun g => (level g.level).map fun v => (g.first :: g.more).map (·, v)) with
      | none => simp [hm]
      | some l => simp [hm]

theorem words_ne (gs : List Group) (h : gs ≠ []) : gs.flatMap Group.words ≠ [] := by
  cases gs with
  | nil => exact absurd rfl h
  | cons g gs => simp [Group.words]

theorem write_all (gs : List Group) : join ',' (gs.map Group.write) = join ',' (gs.flatMap Group.words) := by
  induction gs with
  | nil => rfl
  | cons g gs ih =>
    cases gs with
    | nil => simp [join, write_words]
    | cons h gs =>
      rw [List.flatMap_cons, join_append _ _ _ (by simp [Group.words]) (words_ne _ (by simp)), ← ih, ← write_words]
      rfl

theorem words_plain (gs : List Group) (hg : ∀ g ∈ gs, g.Plain) : ∀ s ∈ gs.flatMap Group.words, ',' ∉ s := by
  intro s hs
  obtain ⟨g, hgm, hs⟩ := List.mem_flatMap.1 hs
  have hp := hg g hgm
  have hall : ∀ t ∈ g.first :: g.more, Start.Plain t := by
    intro t ht
    rcases List.mem_cons.1 ht with rfl | ht
    · exact hp.1
    · exact hp.2.1 t ht
  unfold Group.words at hs
  rcases List.mem_append.1 hs with hs | hs
  · exact (hall s (List.dropLast_subset _ hs)).1
  · rw [List.mem_singleton.1 hs]
    have := (hall _ (List.getLast_mem (l := g.first :: g.more) (by simp))).1
    simp only [List.mem_append, List.mem_cons, not_or]
    exact ⟨this, by decide, hp.2.2.1⟩

/-- The names of the presets are not of this form. -/
theorem preset_eq (s : Str) (h : '=' ∈ s) : preset s = none := by
  unfold preset
  rw [if_neg (by rintro rfl; revert h; decide), if_neg (by rintro rfl; revert h; decide), if_neg (by rintro rfl; revert h; decide)]

theorem eq_mem (gs : List Group) (hne : gs ≠ []) (ts : List Str) : '=' ∈ join ',' (gs.map Group.write ++ ts) := by
  cases gs with
  | nil => exact absurd rfl hne
  | cons g gs =>
    have hg : '=' ∈ g.write := by simp [Group.write]
    simp only [List.map_cons, List.cons_append]
    cases gs.map Group.write ++ ts with
    | nil => exact hg
    | cons a l => simp [join, hg]

/-- **C268**, in part: an option that is made of groups gives each target the level of its group, and nothing else; if a level is not known, the
program panics. -/
theorem C268_groups_partial (level : Str → Option L) (gs : List Group) (hg : ∀ g ∈ gs, g.Plain) (hne : gs ≠ []) :
    logTargets level (some (join ',' (gs.map Group.write))) = means level gs := by
  have hp := preset_eq _ (eq_mem gs hne [])
  rw [List.append_nil] at hp
  show logLoop level (splitAt ',' ((preset _).getD _)) [] [] = _
  rw [hp, Option.getD_none, write_all, splitAt_join _ _ (words_plain gs hg) (words_ne gs hne)]
  have := loop_groups level gs hg [] (by simp) []
  simpa using this

/-- **C268**, violated: targets at the end for which no level is given are silently ignored, whatever they are. -/
theorem C268_trailing_violated (level : Str → Option L) (gs : List Group) (hg : ∀ g ∈ gs, g.Plain) (hne : gs ≠ []) (ts : List Str)
    (hts : ∀ t ∈ ts, Plain t) (htn : ts ≠ []) :
    logTargets level (some (join ',' (gs.map Group.write ++ ts))) = means level gs := by
  have hp := preset_eq _ (eq_mem gs hne ts)
  show logLoop level (splitAt ',' ((preset _).getD _)) [] [] = _
  have hw : gs.map Group.write ≠ [] := by simpa using hne
  have e : join ',' (gs.map Group.write ++ ts) = join ',' (gs.flatMap Group.words ++ ts) := by
    rw [join_append _ _ _ hw htn, write_all, ← join_append _ _ _ (words_ne gs hne) htn]
  rw [hp, Option.getD_none, e, splitAt_join]
  · have := loop_groups level gs hg ts (fun t ht => (hts t ht).2) []
    simpa using this
  · intro s hs
    rcases List.mem_append.1 hs with hs | hs
    · exact words_plain gs hg s hs
    · exact (hts s hs).1
  · simp [htn]

/-- **C268**, violated: a level that is not known makes the program panic, and it does so on the next start too if the option is in the configuration file. -/
theorem C268_unknown_violated (level : Str → Option L) (g : Group) (hg : g.Plain) (h : level g.level = none) :
    logTargets level (some g.write) = none := by
  have := C268_groups_partial level [g] (by simpa using hg) (by simp)
  simpa [join, means, h] using this

/-- **C268**: no option and the names of the presets never panic if the levels of the presets are known. -/
theorem C268_presets (level : Str → Option L) (ht : (level "trace".toList).isSome) (ho : (level "off".toList).isSome) (hd : (level "debug".toList).isSome) :
    ∀ o ∈ [none, some "i2cp".toList, some "sam".toList, some "transit".toList], (logTargets level o).isSome := by
  obtain ⟨t, ht⟩ := Option.isSome_iff_exists.1 ht
  obtain ⟨o, ho⟩ := Option.isSome_iff_exists.1 ho
  obtain ⟨d, hd⟩ := Option.isSome_iff_exists.1 hd
  have key : ∀ gs : List Group, (∀ g ∈ gs, g.Plain) → (∀ g ∈ gs, g.level = "trace".toList ∨ g.level = "off".toList ∨ g.level = "debug".toList) →
      (means level gs).isSome := by
    intro gs _ h
    unfold means
    rw [Option.isSome_map]
    induction gs with
    | nil => rfl
    | cons g gs ih =>
      have i := ih (by simp_all) fun x hx => h x (by simp [hx])
      obtain ⟨l, hl⟩ := Option.isSome_iff_exists.1 i
      rcases h g (by simp) with e | e | e <;> rw [List.mapM_cons, e, hl] <;> simp only [ht, ho, hd] <;> rfl
  have run : ∀ (s : Str) (gs : List Group), preset s = some (join ',' (gs.map Group.write)) → gs ≠ [] → (∀ g ∈ gs, g.Plain) →
      (∀ g ∈ gs, g.level = "trace".toList ∨ g.level = "off".toList ∨ g.level = "debug".toList) → (logTargets level (some s)).isSome := by
    intro s gs hs hne hp hl
    show (logLoop level (splitAt ',' ((preset _).getD _)) [] []).isSome
    rw [hs, Option.getD_some, write_all, splitAt_join _ _ (words_plain gs hp) (words_ne gs hne)]
    have := loop_groups level gs hp [] (by simp) []
    rw [List.append_nil] at this
    rw [this, Option.isSome_map]
    exact key gs hp hl
  intro x hx
  simp only [List.mem_cons, List.not_mem_nil, or_false] at hx
  rcases hx with rfl | rfl | rfl | rfl
  · rfl
  · exact run _ [⟨"emissary::destination".toList, ["emissary::i2cp".toList], "trace".toList⟩, ⟨"emissary::tunnel::pool".toList, [], "off".toList⟩]
      (by decide +kernel) (by simp) (by unfold Group.Plain Plain; decide +kernel) (by decide +kernel)
  · exact run _ [⟨"emissary::sam".toList, ["emissary::streaming".toList, "emissary::destination".toList, "yosemite".toList], "trace".toList⟩,
        ⟨"emissary::tunnel::pool".toList, [], "off".toList⟩, ⟨"emissary::client-tunnel".toList, [], "trace".toList⟩]
      (by decide +kernel) (by simp) (by unfold Group.Plain Plain; decide +kernel) (by decide +kernel)
  · exact run _ [⟨"emissary::tunnel::pool".toList, [], "off".toList⟩, ⟨"emissary::tunnel::transit".toList, [], "trace".toList⟩,
        ⟨"emissary::transport-manager".toList, [], "debug".toList⟩]
      (by decide +kernel) (by simp) (by unfold Group.Plain Plain; decide +kernel) (by decide +kernel)

/-- A reading of levels, for the examples. -/
def toyLevel (s : Str) : Option Nat := if s = "trace".toList then some 5 else if s = "off".toList then some 0 else if s = "debug".toList then some 4 else none

example : logTargets toyLevel (some "a,b=trace,c=off,d".toList) = some [("a".toList, 5), ("b".toList, 5), ("c".toList, 0)] := by decide +kernel
example := C268_groups_partial toyLevel [⟨"a".toList, ["b".toList], "trace".toList⟩, ⟨"c".toList, [], "off".toList⟩]
  (by unfold Group.Plain Plain; decide +kernel) (by simp)
example := C268_trailing_violated toyLevel [⟨"a".toList, ["b".toList], "trace".toList⟩] (by unfold Group.Plain Plain; decide +kernel) (by simp)
  ["d".toList] (by unfold Plain; decide +kernel) (by simp)
example := C268_unknown_violated toyLevel ⟨"a".toList, [], "verbose".toList⟩ (by unfold Group.Plain Plain; decide +kernel) (by decide +kernel)
example := C268_presets toyLevel (by decide +kernel) (by decide +kernel) (by decide +kernel)

/-! ## C269: what is configured is started -/

/-- **C269**: every router that is known or was downloaded is used, and only those; the start fails for want of routers exactly if none is known,
a download was due and failed. -/
theorem C269_routers (s : Settings) (d : Option (List (Bool × Nat))) (sam : Bool) (made : Nat → Bool) :
    (setup s d (some sam) made = none ↔ s.known = [] ∧ ((∃ t, s.threshold = some t ∧ 0 < t) ∨ s.force = true) ∧ d = none) ∧
    (∀ r, setup s d (some sam) made = some r → ∀ x, x ∈ r.routers ↔
      x ∈ s.known ∨ (((∃ t, s.threshold = some t ∧ s.known.length < t) ∨ s.force = true) ∧ ∃ l n, d = some l ∧ (n, x) ∈ l)) ∧
    (∀ r, setup s d (some sam) made = some r → ∀ x, x ∈ r.stored → x ∈ r.routers) := by
  have hr : s.reseeds = true ↔ (∃ t, s.threshold = some t ∧ s.known.length < t) ∨ s.force = true := by
    unfold Settings.reseeds
    cases s.threshold <;> simp
  have key : ∀ r, setup s d (some sam) made = some r → s.reseed d = some (r.routers, r.stored) := by
    intro r h
    unfold setup at h
    cases hq : s.reseed d with
    | none => simp [hq] at h
    | some p => cases sam <;> simp [hq] at h <;> subst h <;> rfl
  have knone : setup s d (some sam) made = none ↔ s.reseed d = none := by
    unfold setup
    cases hq : s.reseed d with
    | none => simp
    | some p => cases sam <;> simp
  refine ⟨?_, ?_, ?_⟩
  · rw [knone]
    unfold Settings.reseed
    constructor
    · intro h
      split at h
      · next hs =>
        split at h
        · cases h
        · split at h
          · next hk =>
            have hk := List.isEmpty_iff.1 hk
            have := hr.1 hs
            rw [hk] at this
            exact ⟨hk, this, rfl⟩
          · cases h
      · cases h
    · rintro ⟨h1, h2, rfl⟩
      rw [if_pos (hr.2 (by rw [h1]; exact h2))]
      simp [h1]
  · intro r h x
    have h := key r h
    rw [← hr]
    unfold Settings.reseed at h
    split at h
    · next hs =>
      split at h
      · simp only [Option.some.injEq, Prod.mk.injEq] at h; rw [← h.1]; simp [hs]
      · split at h
        · cases h
        · simp only [Option.some.injEq, Prod.mk.injEq] at h; rw [← h.1]; simp
    · next hs => simp only [Option.some.injEq, Prod.mk.injEq] at h; rw [← h.1]; simp [hs]
  · intro r h x
    have h := key r h
    unfold Settings.reseed at h
    split at h
    · split at h
      · simp only [Option.some.injEq, Prod.mk.injEq] at h
        rw [← h.1, ← h.2]
        intro hx
        obtain ⟨y, hy, e⟩ := List.mem_map.1 hx
        exact List.mem_append_right _ (List.mem_map.2 ⟨y, (List.mem_filter.1 hy).1, e⟩)
      · split at h
        · cases h
        · simp only [Option.some.injEq, Prod.mk.injEq] at h; rw [← h.2]; simp
    · simp only [Option.some.injEq, Prod.mk.injEq] at h; rw [← h.2]; simp

/-- **C269**, in part: when the SAM server listens, the proxy runs if it is configured, and all client tunnels and the server tunnels that have a destination run. -/
theorem C269_sam_partial (s : Settings) (d : Option (List (Bool × Nat))) (made : Nat → Bool) (r : Running) (h : setup s d (some true) made = some r) :
    r.http = s.http ∧ (∀ n, n ∈ r.clients ↔ n ∈ s.clients) ∧ (∀ n, n ∈ r.servers ↔ n ∈ s.servers ∧ made n = true) ∧
    (r.addressBook = true ↔ s.addressBook = true ∧ s.http = true) := by
  unfold setup at h
  cases hr : s.reseed d with
  | none => simp [hr] at h
  | some p =>
    simp [hr] at h
    subst h
    refine ⟨rfl, fun n => Iff.rfl, fun n => by simp, by simp [and_comm]⟩

/-- **C269**, violated: without the SAM server none of them runs, however they are configured, and the start does not fail. -/
theorem C269_no_sam_violated (s : Settings) (l : List (Bool × Nat)) (made : Nat → Bool) :
    ∃ r, setup s (some l) (some false) made = some r ∧ r.http = false ∧ r.clients = [] ∧ r.servers = [] ∧ r.addressBook = false := by
  unfold setup Settings.reseed
  split <;> exact ⟨_, rfl, rfl, rfl, rfl, rfl⟩

/-- **C269**, violated: without the HTTP proxy the address lists are never downloaded. -/
theorem C269_address_book_violated (s : Settings) (d : Option (List (Bool × Nat))) (sam : Option Bool) (made : Nat → Bool) (r : Running)
    (h : setup s d sam made = some r) (hh : s.http = false) : r.addressBook = false := by
  unfold setup at h
  cases hr : s.reseed d with
  | none => simp [hr] at h
  | some p =>
    cases sam with
    | none => simp [hr] at h
    | some b => cases b <;> simp [hr] at h <;> subst h <;> simp [hh]

/-- **C269**, violated: and a router without a reseed section starts without knowing anybody, and can never join the network. -/
theorem C269_alone_violated (s : Settings) (d : Option (List (Bool × Nat))) (sam : Bool) (made : Nat → Bool) (h1 : s.known = []) (h2 : s.threshold = none)
    (h3 : s.force = false) : ∃ r, setup s d (some sam) made = some r ∧ r.routers = [] := by
  unfold setup Settings.reseed Settings.reseeds
  cases sam <;> simp [h1, h2, h3]

example : setup { known := [1, 2], http := true, addressBook := true, clients := [7], servers := [8, 9] } (some [(true, 3), (false, 4)]) (some true) (· == 8) =
    some { routers := [1, 2, 3, 4], stored := [3], http := true, addressBook := true, clients := [7], servers := [8] } := by decide +kernel

end Emissary.Start
