import Verif.Model.AddressBook
import Mathlib.Data.List.Perm.Basic
/-!
# C198, C199: looking up host names
-/
namespace Emissary.AddressBook

/-! ## Specification -/

/-- What is white space, as far as it matters. -/
structure Blank (ws : Char → Bool) : Prop where
  newline : ws '\n' = true
  equals : ws '=' = false

/-- What a line of a list says: the name before the first `=`, and the address after it up to `#!`,
both without white space around them. -/
def reads (ws : Char → Bool) (line : Str) : Option (Str × Str) :=
  (splitOnce line).map fun p => (trim ws p.1, trim ws (cut p.2))

/-- The address that the lists `ls` give to a name: that of the first line which says something about
it. -/
def firstListed (ws : Char → Bool) (ls : List Str) (host : Str) : Option Str :=
  ((ls.flatMap lines).filterMap (reads ws)).findSome? fun e => if e.1 = host then some e.2 else none

/-- The map is iterated in some order. -/
def Shuffles (order : AMap Str Str → AMap Str Str) : Prop := ∀ m, (order m).Perm m

/-! ## Text -/

theorem lines_ne (s : Str) : lines s ≠ [] := by
  cases s with
  | nil => simp [lines]
  | cons c s =>
    simp only [lines]; split
    · simp
    · split <;> simp

theorem lines_snoc (l s : Str) (h : '\n' ∉ l) : lines (l ++ '\n' :: s) = l :: lines s := by
  induction l with
  | nil => simp [lines]
  | cons c l ih =>
    simp only [List.mem_cons, not_or] at h
    simp only [List.cons_append, lines, if_neg (Ne.symm h.1), ih h.2]

theorem lines_one (l : Str) (h : '\n' ∉ l) : lines l = [l] := by
  induction l with
  | nil => rfl
  | cons c l ih =>
    simp only [List.mem_cons, not_or] at h
    simp only [lines, if_neg (Ne.symm h.1), ih h.2]

theorem lines_free (s : Str) : ∀ l ∈ lines s, '\n' ∉ l := by
  induction s with
  | nil => simp [lines]
  | cons c s ih =>
    intro l hl
    simp only [lines] at hl
    split at hl
    · rcases List.mem_cons.1 hl with rfl | hl
      · simp
      · exact ih l hl
    · next hc =>
      split at hl
      · simp only [List.mem_singleton] at hl
        subst hl
        simpa using Ne.symm hc
      · next l' ls e =>
        rcases List.mem_cons.1 hl with rfl | hl
        · have := ih l' (by rw [e]; simp)
          simp only [List.mem_cons, not_or]
          exact ⟨Ne.symm hc, this⟩
        · exact ih l (by rw [e]; simp [hl])

theorem splitOnce_append (a b : Str) (h : '=' ∉ a) : splitOnce (a ++ '=' :: b) = some (a, b) := by
  induction a with
  | nil => simp [splitOnce]
  | cons c a ih =>
    simp only [List.mem_cons, not_or] at h
    simp [splitOnce, Ne.symm h.1, ih h.2]

theorem splitOnce_some {l a b : Str} (h : splitOnce l = some (a, b)) : l = a ++ '=' :: b ∧ '=' ∉ a := by
  induction l generalizing a with
  | nil => cases h
  | cons c l ih =>
    simp only [splitOnce] at h
    split at h
    · next hc => cases h; simp [hc]
    · next hc =>
      obtain ⟨p, hp, he⟩ := Option.map_eq_some_iff.1 h
      cases he
      obtain ⟨h1, h2⟩ := ih (a := p.1) (by rw [hp])
      refine ⟨by rw [h1]; rfl, ?_⟩
      simp only [List.mem_cons, not_or]
      exact ⟨Ne.symm hc, h2⟩

theorem trim_mem {ws : Char → Bool} {s : Str} {c : Char} (h : c ∈ trim ws s) : c ∈ s := by
  unfold trim at h
  rw [List.mem_reverse] at h
  have := (List.dropWhile_sublist _).subset h
  rw [List.mem_reverse] at this
  exact (List.dropWhile_sublist _).subset this

theorem dropWhile_idem (p : Char → Bool) (l : Str) : (l.dropWhile p).dropWhile p = l.dropWhile p := by
  induction l with
  | nil => rfl
  | cons c l ih =>
    by_cases h : p c = true
    · simp [h, ih]
    · simp [h]

theorem dropWhile_reverse (p : Char → Bool) (u : Str) (h : u.dropWhile p = u) :
    ((u.reverse.dropWhile p).reverse).dropWhile p = (u.reverse.dropWhile p).reverse := by
  have hs : (u.reverse.dropWhile p).reverse <+: u := by
    have := List.dropWhile_suffix p (l := u.reverse)
    rw [← List.reverse_prefix, List.reverse_reverse] at this
    exact this
  generalize (u.reverse.dropWhile p).reverse = t at hs
  obtain ⟨r, hr⟩ := hs
  cases t with
  | nil => rfl
  | cons c t =>
    rw [← hr] at h
    by_cases hc : p c = true
    · exfalso
      have h1 : (List.dropWhile p (c :: t ++ r)).length ≤ (t ++ r).length := by
        simp only [List.cons_append, List.dropWhile_cons, hc, if_true]
        exact (List.dropWhile_sublist _).length_le
      rw [h] at h1
      simp at h1; omega
    · simp [hc]

theorem trim_idem (ws : Char → Bool) (s : Str) : trim ws (trim ws s) = trim ws s := by
  have h1 : (trim ws s).dropWhile ws = trim ws s :=
    dropWhile_reverse ws _ (dropWhile_idem ws s)
  have h2 : (trim ws s).reverse.dropWhile ws = (trim ws s).reverse := by
    unfold trim
    rw [List.reverse_reverse, dropWhile_idem]
  calc trim ws (trim ws s) = (((trim ws s).dropWhile ws).reverse.dropWhile ws).reverse := rfl
    _ = ((trim ws s).reverse.dropWhile ws).reverse := by rw [h1]
    _ = trim ws s := by rw [h2, List.reverse_reverse]

theorem cut_mem {s : Str} {c : Char} (h : c ∈ cut s) : c ∈ s := by
  fun_induction cut s with
  | case1 => cases h
  | case2 d s _ ih =>
    rcases List.mem_cons.1 h with rfl | h
    · simp
    · exact List.mem_cons_of_mem _ (ih h)
  | case3 => cases h

/-! ## The map -/

theorem addLine_eq (ws : Char → Bool) (m : AMap Str Str) (line : Str) :
    addLine ws m line = match reads ws line with
      | none => m
      | some e => if (m.get e.1).isSome then m else m.put e.1 e.2 := by
  unfold addLine reads
  cases splitOnce line with
  | none => rfl
  | some p => simp only [Option.map_some, trim_idem]

/-- An entry that can be written to the file and read back. -/
def Good (ws : Char → Bool) (e : Str × Str) : Prop :=
  '\n' ∉ e.1 ∧ '=' ∉ e.1 ∧ '\n' ∉ e.2 ∧ trim ws e.1 = e.1 ∧ trim ws e.2 = e.2

theorem reads_good (ws : Char → Bool) {line : Str} {e : Str × Str} (hl : '\n' ∉ line)
    (h : reads ws line = some e) : Good ws e := by
  unfold reads at h
  obtain ⟨p, hp, rfl⟩ := Option.map_eq_some_iff.1 h
  obtain ⟨h1, h2⟩ := splitOnce_some (a := p.1) (b := p.2) hp
  rw [h1] at hl
  simp only [List.mem_append, List.mem_cons, not_or] at hl
  refine ⟨fun h => hl.1 (trim_mem h), fun h => h2 (trim_mem h), fun h => hl.2.2 (cut_mem (trim_mem h)),
    trim_idem _ _, trim_idem _ _⟩

/-- The map after the lines `ls`. -/
theorem fold_get (ws : Char → Bool) (ls : List Str) (hl : ∀ l ∈ ls, '\n' ∉ l) :
    ∀ m : AMap Str Str, m.Ok → (∀ e ∈ m, Good ws e) →
    (ls.foldl (addLine ws) m).Ok ∧ (∀ e ∈ ls.foldl (addLine ws) m, Good ws e) ∧
    ∀ h, AMap.get (ls.foldl (addLine ws) m) h =
      (m.get h).or ((ls.filterMap (reads ws)).findSome? fun e => if e.1 = h then some e.2 else none) := by
  induction ls with
  | nil => intro m hm hg; exact ⟨hm, hg, fun h => by simp⟩
  | cons l ls ih =>
    intro m hm hg
    have ih := ih fun x hx => hl x (List.mem_cons_of_mem _ hx)
    rw [List.foldl_cons, addLine_eq]
    cases hs : reads ws l with
    | none =>
      obtain ⟨a, b, c⟩ := ih m hm hg
      refine ⟨a, b, fun h => ?_⟩
      rw [c h, List.filterMap_cons, hs]
    | some e =>
      dsimp only
      by_cases hk : (m.get e.1).isSome
      · rw [if_pos hk]
        obtain ⟨a, b, c⟩ := ih m hm hg
        refine ⟨a, b, fun h => ?_⟩
        rw [c h, List.filterMap_cons, hs]
        dsimp only
        rw [List.findSome?_cons]
        by_cases he : e.1 = h
        · subst he
          obtain ⟨v, hv⟩ := Option.isSome_iff_exists.1 hk
          simp [hv]
        · rw [if_neg he]
      · rw [if_neg hk]
        have hgood : ∀ x ∈ m.put e.1 e.2, Good ws x := by
          intro x hx
          rcases List.mem_cons.1 hx with rfl | hx
          · exact reads_good ws (hl l (by simp)) hs
          · exact hg x (List.mem_filter.1 hx).1
        obtain ⟨a, b, c⟩ := ih (m.put e.1 e.2) (AMap.ok_put hm _ _) hgood
        refine ⟨a, b, fun h => ?_⟩
        rw [c h, List.filterMap_cons, hs, AMap.get_put]
        dsimp only
        rw [List.findSome?_cons]
        have hn : m.get e.1 = none := by simpa using hk
        by_cases he : h = e.1
        · subst he; simp [hn]
        · rw [if_neg he, if_neg (Ne.symm he)]

theorem resolve_render (ws : Char → Bool) (host : Str) (es : List (Str × Str)) (hg : ∀ e ∈ es, Good ws e) :
    resolve ws (render es) host = es.findSome? fun e => if e.1 = host then some e.2 else none := by
  induction es with
  | nil => rfl
  | cons e es ih =>
    obtain ⟨g1, g2, g3, g4, g5⟩ := hg e (by simp)
    have hr : render (e :: es) = (e.1 ++ '=' :: e.2) ++ '\n' :: render es := by
      simp [render]
    unfold resolve at ih ⊢
    rw [hr, lines_snoc _ _ (by simp [g1, g3]), List.findSome?_cons, List.findSome?_cons,
      splitOnce_append _ _ g2]
    dsimp only
    rw [g4, g5, ih fun x hx => hg x (List.mem_cons_of_mem _ hx)]

theorem find_perm {es m : AMap Str Str} (hp : es.Perm m) (hm : m.Ok) (host : Str) :
    (es.findSome? fun e => if e.1 = host then some e.2 else none) = m.get host := by
  have hes : AMap.Ok es := (hp.map _).nodup_iff.2 hm
  have key : ∀ l : AMap Str Str, (l.findSome? fun e => if e.1 = host then some e.2 else none) = l.get host := by
    intro l
    induction l with
    | nil => rfl
    | cons x l ih =>
      rw [List.findSome?_cons, AMap.get_cons, ← ih]
      by_cases h : x.1 = host <;> simp [h]
  rw [key es]
  cases h : m.get host with
  | some v => exact AMap.mem_get hes (hp.mem_iff.2 (AMap.get_mem h))
  | none =>
    cases h' : AMap.get es host with
    | none => rfl
    | some v => rw [AMap.mem_get hm (hp.mem_iff.1 (AMap.get_mem h'))] at h; cases h

theorem merged (ws : Char → Bool) (ls : List (Str × (AMap Str Str → AMap Str Str))) : ∀ s : State,
    s.addresses.Ok → (∀ e ∈ s.addresses, Good ws e) →
    let t := s.run ws (ls.map fun p => .merged p.1 p.2)
    t.addresses.Ok ∧ (∀ e ∈ t.addresses, Good ws e) ∧
    ∀ h, t.addresses.get h = (s.addresses.get h).or (firstListed ws (ls.map (·.1)) h) := by
  induction ls with
  | nil => intro s hm hg; exact ⟨hm, hg, fun h => by simp [State.run, firstListed]⟩
  | cons p ls ih =>
    intro s hm hg
    obtain ⟨a, b, c⟩ := fold_get ws (lines p.1) (lines_free p.1) s.addresses hm hg
    obtain ⟨a', b', c'⟩ := ih (s.step ws (.merged p.1 p.2)) a b
    refine ⟨a', b', fun h => ?_⟩
    refine (c' h).trans ?_
    show (AMap.get (merge ws s.addresses p.1) h).or _ = _
    unfold merge
    rw [c h, Option.or_assoc]
    congr 1
    simp only [firstListed, List.map_cons, List.flatMap_cons, List.filterMap_append, List.findSome?_append]

/-- **C198**: after a start, the lists that arrived are searched in the order in which they arrived:
a name has the address that the first line about it gives, whatever the other lines say and however
the map of names is ordered when the file is written; a name no list mentions is unknown. -/
theorem C198_lookup (ws : Char → Bool) (old : State) (ls : List (Str × (AMap Str Str → AMap Str Str)))
    (hne : ls ≠ []) (ho : ∀ p ∈ ls, Shuffles p.2) (host : Str) :
    (old.run ws (.start :: ls.map fun p => .merged p.1 p.2)).lookup ws host =
      firstListed ws (ls.map (·.1)) host := by
  obtain ⟨pre, p, rfl⟩ : ∃ pre p, ls = pre ++ [p] := by
    rcases List.eq_nil_or_concat ls with h | ⟨a, b, h⟩
    · exact absurd h hne
    · exact ⟨a, b, by rw [h, List.concat_eq_append]⟩
  have h0 := merged ws (pre ++ [p]) { old with addresses := [] } AMap.ok_nil (by simp)
  obtain ⟨a, b, c⟩ := h0
  have e : (old.run ws (.start :: (pre ++ [p]).map fun p => .merged p.1 p.2)) =
      State.run ws { old with addresses := [] } ((pre ++ [p]).map fun p => .merged p.1 p.2) := rfl
  rw [e]
  generalize ht : State.run ws { old with addresses := [] } ((pre ++ [p]).map fun p => .merged p.1 p.2) = t
    at a b c
  have hf : t.file = some (render (p.2 t.addresses)) := by
    rw [← ht]
    simp only [State.run, List.map_append, List.map_cons, List.map_nil, List.foldl_append,
      List.foldl_cons, List.foldl_nil, State.step]
  have hp : (p.2 t.addresses).Perm t.addresses := ho p (by simp) _
  unfold State.lookup
  rw [hf]
  show resolve ws (render (p.2 t.addresses)) host = _
  rw [resolve_render ws host _ (fun e he => b e (hp.mem_iff.1 he)), find_perm hp a, c host]
  simp

/-- **C198**: a line `name=address`, with or without white space and a comment that begins with `#!`,
says what it seems to say. -/
theorem C198_line {ws : Char → Bool} (hb : Blank ws) (name address pre post pre' post' comment : Str)
    (hn : '=' ∉ name) (hn' : name.dropWhile ws = name ∧ name.reverse.dropWhile ws = name.reverse)
    (ha : ¬ ['#', '!'] <:+: address ++ post') (ha' : address.dropWhile ws = address ∧
      address.reverse.dropWhile ws = address.reverse)
    (hpre : ∀ c ∈ pre ++ post ++ pre' ++ post', ws c = true) (hx : ws '#' = false)
    (hc : comment = [] ∨ ∃ r, comment = '#' :: '!' :: r) :
    reads ws (pre ++ name ++ post ++ '=' :: (pre' ++ address ++ post' ++ comment)) = some (name, address) := by
  have hw : ∀ x y : Str, (∀ c ∈ x, ws c = true) → (x ++ y).dropWhile ws = y.dropWhile ws := by
    intro x y h
    induction x with
    | nil => rfl
    | cons c x ih =>
      rw [List.cons_append, List.dropWhile_cons, if_pos (h c (by simp))]
      exact ih fun d hd => h d (List.mem_cons_of_mem _ hd)
  have ht : ∀ a m z : Str, (∀ c ∈ a, ws c = true) → (∀ c ∈ z, ws c = true) →
      m.dropWhile ws = m → m.reverse.dropWhile ws = m.reverse → trim ws (a ++ m ++ z) = m := by
    intro a m z h1 h2 h3 h4
    unfold trim
    rw [List.append_assoc, hw a _ h1]
    cases m with
    | nil =>
      have : z.dropWhile ws = [] := by
        have := hw z [] h2
        simpa using this
      simp [this]
    | cons c m =>
      have hc : ws c = false := by
        rw [List.dropWhile_cons] at h3
        split at h3
        · have := congrArg List.length h3
          have h5 := (List.dropWhile_sublist ws (l := m)).length_le
          simp at this; omega
        · next h => simpa using h
      rw [show (c :: m ++ z).dropWhile ws = c :: m ++ z by simp [hc], List.reverse_append,
        hw z.reverse _ (by simpa using h2), h4, List.reverse_reverse]
  have hsp : ∀ c ∈ pre ++ post ++ pre' ++ post', c ≠ '=' := by
    intro c h1 h2
    have := hpre c h1
    rw [h2, hb.equals] at this; cases this
  simp only [List.mem_append] at hpre hsp
  have hcut : ∀ x : Str, ¬ ['#', '!'] <:+: x → ∀ r : Str, cut (x ++ r) = x ++ cut r ∨
      (x.getLast? = some '#' ∧ r.head? = some '!') := by
    intro x hx r
    induction x with
    | nil => left; rfl
    | cons c x ih =>
      have ih := ih fun h => hx (h.trans (List.suffix_cons _ _).isInfix)
      cases x with
      | nil =>
        cases r with
        | nil => left; cases c; simp [cut]
        | cons d r =>
          by_cases h : c = '#' ∧ d = '!'
          · right; simp [h.1, h.2]
          · left
            rw [List.singleton_append, cut]
            · rfl
            · intro s h1 h2; simp only [List.cons.injEq] at h2; exact h ⟨h1, h2.1⟩
      | cons d x =>
        have : ¬ (c = '#' ∧ d = '!') := by
          rintro ⟨rfl, rfl⟩
          exact hx ⟨[], x, by simp⟩
        rcases ih with ih | ⟨h1, h2⟩
        · left
          rw [List.cons_append, List.cons_append, cut]
          · rw [show d :: (x ++ r) = d :: x ++ r from rfl, ih]; rfl
          · intro s h1 h2; simp only [List.cons.injEq] at h2; exact this ⟨h1, h2.1⟩
        · right
          exact ⟨by rw [List.getLast?_cons_cons]; exact h1, h2⟩
  have hinf : ¬ ['#', '!'] <:+: pre' ++ address ++ post' := by
    rintro ⟨u, v, h⟩
    rw [List.append_assoc pre'] at h
    have : ∃ w, u = pre' ++ w := by
      rcases List.append_eq_append_iff.1 (show u ++ (['#', '!'] ++ v) = pre' ++ (address ++ post') by
        rw [← h]; simp) with ⟨w, h1, h2⟩ | ⟨w, h1, h2⟩
      · cases w with
        | nil => exact ⟨[], by simpa using h1.symm⟩
        | cons d w =>
          exfalso
          have hd : d = '#' := by
            simp only [List.cons_append, List.nil_append, List.cons.injEq] at h2; exact h2.1.symm
          have := hpre d (.inl (.inr (by rw [h1]; simp)))
          rw [hd, hx] at this; cases this
      · exact ⟨w, h1⟩
    obtain ⟨w, rfl⟩ := this
    exact ha ⟨w, v, by
      have : pre' ++ (w ++ ['#', '!'] ++ v) = pre' ++ (address ++ post') := by rw [← h]; simp
      exact List.append_cancel_left this⟩
  have hcc : cut (pre' ++ address ++ post' ++ comment) = pre' ++ address ++ post' := by
    rcases hcut _ hinf comment with h | ⟨h1, h2⟩
    · rw [h]
      rcases hc with rfl | ⟨r, rfl⟩ <;> simp [cut]
    · rcases hc with rfl | ⟨r, rfl⟩ <;> simp at h2
  unfold reads
  rw [splitOnce_append _ _ (by
    simp only [List.mem_append, not_or]
    exact ⟨⟨fun h => hsp _ (.inl (.inl (.inl h))) rfl, hn⟩, fun h => hsp _ (.inl (.inl (.inr h))) rfl⟩)]
  simp only [Option.map_some, hcc]
  rw [ht pre name post (fun c h => hpre c (.inl (.inl (.inl h)))) (fun c h => hpre c (.inl (.inl (.inr h))))
    hn'.1 hn'.2, ht pre' address post' (fun c h => hpre c (.inl (.inr h))) (fun c h => hpre c (.inr h)) ha'.1 ha'.2]

/-! ## C199: restarts and crashes -/

/-- **C199**, violated: names are forgotten with a restart. Whatever the book knew, once the first
list of the new run has arrived it knows only what this list says, and so it stays if the other lists
cannot be fetched. -/
theorem C199_forgotten_violated (ws : Char → Bool) (old : State) (hosts : Str)
    (order : AMap Str Str → AMap Str Str) (ho : Shuffles order) (host : Str)
    (hl : firstListed ws [hosts] host = none) :
    (old.run ws [.start, .merged hosts order]).lookup ws host = none := by
  have := C198_lookup ws old [(hosts, order)] (by simp) (by simpa using ho) host
  simp only [List.map_cons, List.map_nil] at this
  rw [this, hl]

/-- **C199**, violated: if the program stops before anything is written to the file, no name is known
any more. -/
theorem C199_crash_violated (ws : Char → Bool) (s : State) (hosts : Str)
    (order : AMap Str Str → AMap Str Str) (host : Str) :
    (s.run ws [.torn hosts order 0, .start]).lookup ws host = none := by
  simp [State.run, State.step, State.lookup, resolve, lines, splitOnce]

/-- **C199**, violated: if it stops in the middle of an address, the name has the part of the address
that was written, unless the name appears before. -/
theorem C199_torn_violated (ws : Char → Bool) (s : State) (hosts : Str)
    (order : AMap Str Str → AMap Str Str) (ho : Shuffles order) (hs : s.addresses = [])
    (es more : List (Str × Str)) (name part rest : Str)
    (h : order (merge ws [] hosts) = es ++ (name, part ++ rest) :: more) :
    (s.run ws [.torn hosts order ((render es).length + (name.length + 1 + part.length)), .start]).lookup ws name =
      some (trim ws part) := by
  obtain ⟨a, b, c⟩ := fold_get ws (lines hosts) (lines_free hosts) [] AMap.ok_nil (by simp)
  have hp := ho (merge ws [] hosts)
  rw [h] at hp
  have hg : ∀ e ∈ es ++ (name, part ++ rest) :: more, Good ws e := fun e he => b e (hp.mem_iff.1 he)
  have hok : AMap.Ok (es ++ (name, part ++ rest) :: more) := (hp.map _).nodup_iff.2 a
  have hno : ∀ e ∈ es, e.1 ≠ name := by
    intro e he hx
    unfold AMap.Ok at hok
    rw [List.map_append, List.nodup_append] at hok
    exact hok.2.2 e.1 (List.mem_map_of_mem he) name (by simp) hx
  obtain ⟨g1, g2, g3, g4, -⟩ := hg (name, part ++ rest) (by simp)
  have hfile : (render (es ++ (name, part ++ rest) :: more)).take
      ((render es).length + (name.length + 1 + part.length)) = render es ++ (name ++ '=' :: part) := by
    have e1 : render (es ++ (name, part ++ rest) :: more) =
        render es ++ ((name ++ '=' :: part) ++ (rest ++ '\n' :: render more)) := by
      simp [render]
    rw [e1, List.take_length_add_append]
    congr 1
    rw [List.take_append_of_le_length (by simp; omega), List.take_of_length_le (by simp; omega)]
  simp only [State.run, List.foldl_cons, List.foldl_nil, State.step, State.lookup, hs, h, hfile,
    Option.bind_some]
  have hes : ∀ e ∈ es, Good ws e := fun e he => hg e (by simp [he])
  clear hfile h hp hok hg
  induction es with
  | nil =>
    simp only [render, List.flatMap_nil, List.nil_append]
    unfold resolve
    simp only at g1 g2 g3 g4
    simp only [List.mem_append, not_or] at g3
    rw [lines_one _ (by simp [g1, g3.1]), List.findSome?_cons, splitOnce_append _ _ g2]
    simp [g4]
  | cons e es ih =>
    obtain ⟨k1, k2, k3, k4, k5⟩ := hes e (by simp)
    have hr : render (e :: es) ++ (name ++ '=' :: part) =
        (e.1 ++ '=' :: e.2) ++ '\n' :: (render es ++ (name ++ '=' :: part)) := by
      simp [render]
    have := ih (fun x hx => hno x (List.mem_cons_of_mem _ hx)) (fun x hx => hes x (List.mem_cons_of_mem _ hx))
    unfold resolve at this ⊢
    rw [hr, lines_snoc _ _ (by simp [k1, k3]), List.findSome?_cons, splitOnce_append _ _ k2]
    dsimp only
    rw [k4, if_neg (hno e (by simp))]
    exact this

/-- **C199**, in part: a file that was written without a crash keeps its names when the program is
started again, until the first list arrives. -/
theorem C199_kept_partial (ws : Char → Bool) (old : State)
    (ls : List (Str × (AMap Str Str → AMap Str Str))) (hne : ls ≠ []) (ho : ∀ p ∈ ls, Shuffles p.2)
    (host : Str) :
    (old.run ws ((.start :: ls.map fun p => .merged p.1 p.2) ++ [.start])).lookup ws host =
      firstListed ws (ls.map (·.1)) host := by
  rw [← C198_lookup ws old ls hne ho host]
  unfold State.run State.lookup
  rw [List.foldl_append]
  rfl

/-! ## The cases occur -/

/-- Blanks, tabs and line ends. -/
def blanks : Char → Bool := fun c => c = ' ' || c = '\t' || c = '\n' || c = '\r'

def list1 : Str := "# my hosts\na.i2p = AAAA#!sig=1\nb.i2p=BBBB\r\n".toList
def list2 : Str := "b.i2p=EVIL\nc.i2p=CC=C\n".toList

example : Blank blanks := ⟨by decide, by decide⟩
example : let s := ({} : State).run blanks [.start, .merged list1 id, .merged list2 List.reverse]
    s.lookup blanks "a.i2p".toList = some "AAAA".toList ∧ s.lookup blanks "b.i2p".toList = some "BBBB".toList ∧
    s.lookup blanks "c.i2p".toList = some "CC=C".toList ∧ s.lookup blanks "d.i2p".toList = none := by
  decide +kernel
example := C198_lookup blanks {} [(list1, id), (list2, List.reverse)] (by simp)
  (by intro p hp; simp only [List.mem_cons, List.not_mem_nil, or_false] at hp
      rcases hp with rfl | rfl
      · exact fun _ => .refl _
      · exact fun m => List.reverse_perm m) "b.i2p".toList
example := C198_line ⟨by decide, by decide⟩ (ws := blanks) "a.i2p".toList "AAAA".toList [] [' '] [' '] []
  "#!sig=1".toList (by decide) (by decide) (by decide) (by decide) (by decide) (by decide) (.inr ⟨_, rfl⟩)
example := C199_forgotten_violated blanks (State.run blanks {} [.start, .merged list1 id, .merged list2 id])
  list1 id (fun _ => .refl _) "c.i2p".toList (by decide +kernel)
example := C199_torn_violated blanks {} list2 id (fun _ => .refl _) rfl [("c.i2p".toList, "CC=C".toList)] []
  "b.i2p".toList "EV".toList "IL".toList (by decide +kernel)

end Emissary.AddressBook
