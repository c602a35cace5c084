import Verif.Model.SamParser
/-!
# C165 and C166: what the commands of a SAM client mean

The specification: a client writes a command as two words and options. An option is a key, an equals sign and a value, which may be in quotes.
-/
namespace Emissary.SamParser

/-- A key begins with a letter or an underscore; letters, digits, underscores and dots follow. -/
def IsKey (k : Str) : Prop := ∃ c r, k = c :: r ∧ (isAlpha c = true ∨ c = '_') ∧ ∀ d ∈ r, isAlnum d = true ∨ d = '_' ∨ d = '.'

/-- An option as a client writes it. -/
structure Opt where
  key : Str
  val : Str
  quoted : Bool

/-- What the client sends. -/
def Opt.text (o : Opt) : Str := o.key ++ '=' :: if o.quoted then '"' :: (o.val ++ ['"']) else o.val

/-- Values without spaces may be written without quotes, values without quotes and backslashes may be written in quotes. -/
def Opt.Ok (o : Opt) : Prop := IsKey o.key ∧ o.val ≠ [] ∧
  if o.quoted then ∀ c ∈ o.val, c ≠ '"' ∧ c ≠ '\\' else (∀ c ∈ o.val, isSpace c = false) ∧ o.val.head? ≠ some '"'

/-- A command. -/
def line (w sub : String) (os : List Opt) : Str := w.toList ++ ' ' :: (sub.toList ++ os.flatMap fun o => ' ' :: o.text)

/-- The value that is given for a key, the last one if there are several. -/
def last (os : List Opt) (k : String) : Option Str := ((os.filter fun o => decide (o.key = k.toList)).getLast?).map (·.val)

theorem key_text {k : Str} (h : IsKey k) (rest : Str) (hr : ∀ c ∈ rest.head?, isKeyChar c = false) : key (k ++ rest) = some (k, rest) := by
  obtain ⟨c, r, rfl, hc, hd⟩ := h
  have hall : ∀ d ∈ c :: r, isKeyChar d = true := by
    intro d hm
    rcases List.mem_cons.mp hm with rfl | hm
    · unfold isKeyChar isAlnum
      rcases hc with hc | hc <;> simp [hc]
    · unfold isKeyChar
      rcases hd d hm with h | h | h <;> simp [h]
  have ht : ((c :: r) ++ rest).takeWhile isKeyChar = c :: r := by
    rw [List.takeWhile_append_of_pos hall]
    cases rest with
    | nil => simp
    | cons x rest => rw [List.takeWhile_cons, if_neg (by rw [hr x (by simp)]; simp), List.append_nil]
  have hdr : ((c :: r) ++ rest).dropWhile isKeyChar = rest := by
    rw [List.dropWhile_append_of_pos hall]
    cases rest with
    | nil => simp
    | cons x rest => rw [List.dropWhile_cons, if_neg (by rw [hr x (by simp)]; simp)]
  rw [List.cons_append] at ht hdr ⊢
  unfold key
  dsimp only
  rw [if_pos (by rcases hc with hc | hc <;> simp [hc]), ht, hdr]

theorem body_plain (v rest : Str) (h : ∀ c ∈ v, c ≠ '"' ∧ c ≠ '\\') : body (v ++ '"' :: rest) = some (v, '"' :: rest) := by
  induction v with
  | nil => rw [List.nil_append, body.eq_def]; simp
  | cons c v ih =>
    obtain ⟨h1, h2⟩ := h c List.mem_cons_self
    rw [List.cons_append, body.eq_def]
    dsimp only
    rw [if_neg h1, if_neg h2, ih fun d hd => h d (List.mem_cons_of_mem _ hd)]
    rfl

theorem value_text (v rest : Str) (q : Bool) (hv : v ≠ []) (h : if q then ∀ c ∈ v, c ≠ '"' ∧ c ≠ '\\' else (∀ c ∈ v, isSpace c = false) ∧ v.head? ≠ some '"') (hr : ∀ c ∈ rest.head?, isSpace c = true) :
    value ((if q then '"' :: (v ++ ['"']) else v) ++ rest) = some (v, rest) := by
  cases q with
  | true =>
    have h : ∀ c ∈ v, c ≠ '"' ∧ c ≠ '\\' := h
    simp only [if_true]
    have : quoted ('"' :: (v ++ ['"']) ++ rest) = some (v, rest) := by
      rw [List.cons_append, List.append_assoc]
      unfold quoted
      dsimp only
      rw [if_pos rfl, show ['"'] ++ rest = '"' :: rest from rfl, body_plain v rest h]
      simp [hv]
    unfold value
    rw [this]
  | false =>
    have h : (∀ c ∈ v, isSpace c = false) ∧ v.head? ≠ some '"' := h
    simp only [Bool.false_eq_true, if_false]
    obtain ⟨c, r, rfl⟩ : ∃ c r, v = c :: r := by
      cases v with
      | nil => exact absurd rfl hv
      | cons c r => exact ⟨c, r, rfl⟩
    have hc : c ≠ '"' := fun e => h.2 (by rw [e]; rfl)
    have hq : quoted (c :: r ++ rest) = none := by
      rw [List.cons_append]
      unfold quoted
      dsimp only
      rw [if_neg hc]
    have hall : ∀ d ∈ c :: r, (!isSpace d) = true := fun d hd => by rw [h.1 d hd]; rfl
    have ht : ((c :: r) ++ rest).takeWhile (fun d => !isSpace d) = c :: r := by
      rw [List.takeWhile_append_of_pos hall]
      cases rest with
      | nil => simp
      | cons x rest => rw [List.takeWhile_cons, if_neg (by rw [hr x (by simp)]; simp), List.append_nil]
    have hd : ((c :: r) ++ rest).dropWhile (fun d => !isSpace d) = rest := by
      rw [List.dropWhile_append_of_pos hall]
      cases rest with
      | nil => simp
      | cons x rest => rw [List.dropWhile_cons, if_neg (by rw [hr x (by simp)]; simp)]
    unfold value
    rw [hq]
    unfold bare
    dsimp only
    rw [ht, hd, if_neg hv]

theorem keyValue_text {o : Opt} (h : o.Ok) (rest : Str) (hr : ∀ c ∈ rest.head?, isSpace c = true) : keyValue (o.text ++ rest) = some ((o.key, o.val), rest) := by
  obtain ⟨h1, h2, h3⟩ := h
  unfold keyValue Opt.text
  rw [List.append_assoc, List.cons_append, key_text h1 _ (by intro c hc; simp at hc; subst hc; decide)]
  dsimp only
  rw [if_pos rfl, value_text o.val rest o.quoted h2 h3 hr]
  rfl

theorem key_head {k : Str} (h : IsKey k) (s : Str) : (k ++ s).dropWhile isBlank = k ++ s := by
  obtain ⟨c, r, rfl, hc, _⟩ := h
  rw [List.cons_append, List.dropWhile_cons, if_neg]
  intro hb
  unfold isBlank at hb
  rcases hc with hc | hc
  · have : c = ' ' ∨ c = '\t' ∨ c = '\r' ∨ c = '\n' := by simpa [or_assoc] using hb
    rcases this with rfl | rfl | rfl | rfl <;> revert hc <;> decide
  · subst hc
    revert hb
    decide

/-- The options are read one after the other. -/
theorem pairs_text (os : List Opt) : ∀ (n : Nat) (rest : Str), os.length ≤ n → (∀ o ∈ os, o.Ok) → (∀ c ∈ rest.head?, c = ' ') → keyValue (rest.dropWhile isBlank) = none →
    pairs n ((os.flatMap fun o => ' ' :: o.text) ++ rest) = (os.map fun o => (o.key, o.val), rest) := by
  induction os with
  | nil =>
    intro n rest _ _ _ hs
    cases n with
    | zero => rfl
    | succ n =>
      unfold pairs
      simp only [List.flatMap_nil, List.nil_append, hs, List.map_nil]
  | cons o os ih =>
    intro n rest hn ho hr hs
    obtain ⟨n, rfl⟩ : ∃ m, n = m + 1 := ⟨n - 1, by simp at hn; omega⟩
    have hok := ho o List.mem_cons_self
    have hrest : ∀ c ∈ ((os.flatMap fun o => ' ' :: o.text) ++ rest).head?, isSpace c = true := by
      intro c hc
      cases os with
      | nil =>
        have := hr c (by simpa using hc)
        rw [this]
        decide
      | cons p os =>
        simp at hc
        rw [← hc]
        decide
    have e : (((o :: os).flatMap fun o => ' ' :: o.text) ++ rest).dropWhile isBlank = o.text ++ ((os.flatMap fun o => ' ' :: o.text) ++ rest) := by
      rw [List.flatMap_cons, List.cons_append, List.cons_append, List.dropWhile_cons, if_pos (by decide), List.append_assoc]
      unfold Opt.text
      rw [List.append_assoc]
      exact key_head hok.1 _
    unfold pairs
    rw [e, keyValue_text hok _ hrest]
    dsimp only
    rw [ih n rest (by simp at hn; omega) (fun x hx => ho x (List.mem_cons_of_mem _ hx)) hr hs]
    rfl

theorem text_pos (o : Opt) : 1 ≤ o.text.length := by
  unfold Opt.text
  simp only [List.length_append, List.length_cons]
  omega

theorem texts_long (os : List Opt) : os.length ≤ (os.flatMap fun o => ' ' :: o.text).length := by
  induction os with
  | nil => simp
  | cons o os ih =>
    rw [List.flatMap_cons, List.length_append, List.length_cons, List.length_cons]
    omega

/-- Reading the options of a command, with something after them that is not an option. -/
theorem options_text (os : List Opt) (rest : Str) (ho : ∀ o ∈ os, o.Ok) (hr : ∀ c ∈ rest.head?, c = ' ') (hs : keyValue (rest.dropWhile isBlank) = none) :
    let t := optBlank ((os.flatMap fun o => ' ' :: o.text) ++ rest)
    (pairs t.length t).1 = os.map fun o => (o.key, o.val) := by
  intro t
  cases os with
  | nil =>
    have hdrop : ∀ s : Str, keyValue (s.dropWhile isBlank) = none → ∀ n, (pairs n s).1 = [] := by
      intro s h n
      cases n with
      | zero => rfl
      | succ n => unfold pairs; rw [h]
    refine hdrop t ?_ _
    have : t.dropWhile isBlank = rest.dropWhile isBlank := by
      show (optBlank rest).dropWhile isBlank = _
      cases rest with
      | nil => rfl
      | cons c rest =>
        have := hr c (by simp)
        subst this
        show List.dropWhile isBlank rest = _
        rw [List.dropWhile_cons, if_pos (by decide)]
    rw [this]
    exact hs
  | cons o os =>
    have hok := ho o List.mem_cons_self
    have ht : t = o.text ++ ((os.flatMap fun o => ' ' :: o.text) ++ rest) := by
      show optBlank _ = _
      rw [List.flatMap_cons, List.cons_append, List.cons_append, List.append_assoc]
      rfl
    obtain ⟨n, hn⟩ : ∃ n, t.length = n + 1 := ⟨t.length - 1, by
      have := text_pos o
      have : o.text.length ≤ t.length := by rw [ht, List.length_append]; omega
      omega⟩
    have hlen : os.length ≤ n := by
      have h1 := texts_long os
      have h2 := text_pos o
      have h3 : t.length = o.text.length + ((os.flatMap fun o => ' ' :: o.text).length + rest.length) := by rw [ht]; simp
      omega
    have hrest : ∀ c ∈ ((os.flatMap fun o => ' ' :: o.text) ++ rest).head?, isSpace c = true := by
      intro c hc
      cases os with
      | nil =>
        have := hr c (by simpa using hc)
        rw [this]
        decide
      | cons p os =>
        simp at hc
        rw [← hc]
        decide
    rw [hn]
    unfold pairs
    have e : t.dropWhile isBlank = t := by
      rw [ht]
      unfold Opt.text
      rw [List.append_assoc]
      exact key_head hok.1 _
    rw [e, ht, keyValue_text hok _ hrest]
    dsimp only
    rw [pairs_text os n rest hlen (fun x hx => ho x (List.mem_cons_of_mem _ hx)) hr hs]
    rfl

theorem tag_self (t s : Str) : tag t (t ++ s) = some s := by
  unfold tag
  rw [if_pos (by rw [List.isPrefixOf_iff_prefix]; exact List.prefix_append t s), List.drop_left]

/-- A command word that is not the beginning of another one is read. -/
theorem oneOf_self (l : List Str) (t s : Str) (ht : t ∈ l) (hl : ∀ u ∈ l, u ≠ t → ¬ u <+: t ∧ ¬ t <+: u) : oneOf l (t ++ s) = some (t, s) := by
  induction l with
  | nil => cases ht
  | cons u l ih =>
    unfold oneOf
    by_cases hu : u = t
    · rw [hu, tag_self]
    · have : tag u (t ++ s) = none := by
        unfold tag
        rw [if_neg]
        rw [List.isPrefixOf_iff_prefix]
        intro hp
        rcases List.prefix_or_prefix_of_prefix hp (List.prefix_append t s) with h | h
        · exact (hl u List.mem_cons_self hu).1 h
        · exact (hl u List.mem_cons_self hu).2 h
      rw [this]
      dsimp only
      refine ih ?_ fun x hx => hl x (List.mem_cons_of_mem _ hx)
      rcases List.mem_cons.mp ht with h | h
      · exact absurd h.symm hu
      · exact h

/-- A command is read as it is written. -/
theorem parse_line {D : Type} (e : Env D) (w sub : String) (hw : w.toList ∈ words) (hs : sub.toList ∈ subwords) (os : List Opt) (ho : ∀ o ∈ os, o.Ok) (rest : Str) (hr : ∀ c ∈ rest.head?, c = ' ')
    (hn : keyValue (rest.dropWhile isBlank) = none) :
    parse e (line w sub os ++ rest) = command e w.toList (some sub.toList) (AMap.puts [] (os.map fun o => (o.key, o.val))) := by
  have h1 : ∀ t ∈ words, ∀ u ∈ words, u ≠ t → ¬ u <+: t ∧ ¬ t <+: u := by decide +kernel
  have h2 : ∀ t ∈ subwords, ∀ u ∈ subwords, u ≠ t → ¬ u <+: t ∧ ¬ t <+: u := by decide +kernel
  unfold parse line
  rw [List.append_assoc, oneOf_self words w.toList _ hw (h1 _ hw)]
  dsimp only
  rw [List.cons_append, show ∀ s, optBlank (' ' :: s) = s from fun _ => rfl, List.append_assoc]
  unfold optOneOf
  rw [oneOf_self subwords sub.toList _ hs (h2 _ hs)]
  dsimp only
  rw [options_text os rest ho hr hn]

theorem get_last (os : List Opt) (k : String) : AMap.get (AMap.puts [] (os.map fun o => (o.key, o.val))) k.toList = last os k := by
  rw [AMap.get_puts]
  unfold last
  generalize k.toList = k
  have : ∀ l : List Opt, AMap.get (l.map fun o => (o.key, o.val)) k = ((l.filter fun o => decide (o.key = k)).head?).map (·.val) := by
    intro l
    induction l with
    | nil => rfl
    | cons o l ih =>
      rw [List.map_cons, AMap.get_cons, List.filter_cons]
      by_cases h : o.key = k
      · simp [h]
      · simp only [h, if_false, decide_false, Bool.false_eq_true, ih]
  rw [← List.map_reverse, this, List.filter_reverse, List.head?_reverse]
  cases (List.map (fun x => x.val) ((os.filter fun o => decide (o.key = k)).getLast?.toList)) <;> cases ((os.filter fun o => decide (o.key = k)).getLast?) <;> rfl

theorem get_last' (os : List Opt) (k : Str) : AMap.get (AMap.puts [] (os.map fun o => (o.key, o.val))) k = last os (String.ofList k) := by
  have := get_last os (String.ofList k)
  rw [String.toList_ofList] at this
  exact this

theorem parse_plain {D : Type} (e : Env D) (w sub : String) (hw : w.toList ∈ words) (hs : sub.toList ∈ subwords) (os : List Opt) (ho : ∀ o ∈ os, o.Ok) :
    parse e (line w sub os) = command e w.toList (some sub.toList) (AMap.puts [] (os.map fun o => (o.key, o.val))) := by
  have := parse_line e w sub hw hs os ho [] (by simp) rfl
  rwa [List.append_nil] at this

/-! ## C165: the options of a command -/

theorem C165_hello {D : Type} (e : Env D) (os : List Opt) (ho : ∀ o ∈ os, o.Ok) :
    parse e (line "HELLO" "VERSION" os) = .ok (.hello ((last os "MIN").bind version) ((last os "MAX").bind version)) := by
  rw [parse_plain e _ _ (by decide) (by decide) os ho]
  unfold command
  rw [if_pos ⟨rfl, rfl⟩, get_last, get_last]

/-- The names of the versions. -/
def versionName : Version → String
  | .v31 => "3.1"
  | .v32 => "3.2"
  | .v33 => "3.3"

/-- A version is understood by its name, and nothing else is a version. -/
theorem C165_versions (s : Str) (v : Version) : version s = some v ↔ s = (versionName v).toList := by
  constructor
  · intro h
    unfold version at h
    split at h
    · cases h; assumption
    · split at h
      · cases h; assumption
      · split at h
        · cases h; assumption
        · cases h
  · rintro rfl
    cases v <;> decide

/-- The options of a session without those that the router itself needs. A session for datagrams has a host. -/
def sessionOption (os : List Opt) (datagrams : Bool) (k : String) : Option Str :=
  if k = "ID" ∨ k = "STYLE" ∨ k = "DESTINATION" then none
  else if datagrams = true ∧ k = "HOST" then some ((last os "HOST").getD "127.0.0.1".toList)
  else last os k

/-- The styles of sessions. -/
def style : Kind → String
  | .stream => "STREAM"
  | .datagram => "DATAGRAM"
  | .anonymous => "RAW"

theorem toList_eq (a b : String) : a.toList = b.toList ↔ a = b := String.toList_inj

theorem create_of {D : Type} (e : Env D) (os : List Opt) (ho : ∀ o ∈ os, o.Ok) (id : Str) (k : Kind) (d : Str) (c : Ctx D)
    (hid : last os "ID" = some id) (hst : last os "STYLE" = some (style k).toList) (hd : last os "DESTINATION" = some d) (hp : k ≠ .stream → (last os "PORT").isSome) (hc : ctx e (some d) = some c) :
    ∃ opts, parse e (line "SESSION" "CREATE" os) = .ok (.create id k c opts) ∧ ∀ x : String, AMap.get opts x.toList = sessionOption os (decide (k ≠ .stream)) x := by
  rw [parse_plain e _ _ (by decide) (by decide) os ho]
  unfold command
  rw [if_neg (by decide), if_pos ⟨rfl, rfl⟩]
  generalize hm : AMap.puts [] (os.map fun o => (o.key, o.val)) = m
  have hg : ∀ x : String, AMap.get m x.toList = last os x := fun x => by rw [← hm]; exact get_last os x
  unfold create
  rw [hg, hid]
  dsimp only
  have hs1 : AMap.get (AMap.del m "ID".toList) "STYLE".toList = some (style k).toList := by
    rw [AMap.get_del, if_neg (by decide), hg, hst]
  rw [hs1]
  cases k with
  | stream =>
    have : kind (AMap.del (AMap.del m "ID".toList) "STYLE".toList) (some (style .stream).toList) = some (.stream, AMap.del (AMap.del m "ID".toList) "STYLE".toList) := by
      unfold kind
      exact if_pos (by decide)
    rw [this]
    dsimp only
    rw [AMap.get_del, if_neg (by decide), AMap.get_del, if_neg (by decide), hg, hd, hc]
    refine ⟨_, rfl, ?_⟩
    intro x
    rw [AMap.get_del, AMap.get_del, AMap.get_del, hg]
    unfold sessionOption
    simp only [toList_eq]
    by_cases h1 : x = "ID"
    · simp [h1]
    · by_cases h2 : x = "STYLE"
      · simp [h2]
      · by_cases h3 : x = "DESTINATION"
        · simp [h3]
        · simp [h1, h2, h3]
  | datagram =>
    obtain ⟨p, hp⟩ := Option.isSome_iff_exists.mp (hp nofun)
    have hP : AMap.get (AMap.del (AMap.del m "ID".toList) "STYLE".toList) "PORT".toList = some p := by
      rw [AMap.get_del, if_neg (by decide), AMap.get_del, if_neg (by decide), hg, hp]
    have hH : AMap.get (AMap.del (AMap.del m "ID".toList) "STYLE".toList) "HOST".toList = last os "HOST" := by
      rw [AMap.get_del, if_neg (by decide), AMap.get_del, if_neg (by decide), hg]
    have : kind (AMap.del (AMap.del m "ID".toList) "STYLE".toList) (some (style .datagram).toList) = some (.datagram, if (last os "HOST").isNone then (AMap.del (AMap.del m "ID".toList) "STYLE".toList).put "HOST".toList "127.0.0.1".toList else AMap.del (AMap.del m "ID".toList) "STYLE".toList) := by
      unfold kind
      dsimp only
      rw [if_neg (show ¬ (style .datagram).toList = "STREAM".toList by decide), if_pos (show _ ∨ _ by decide), hP]
      dsimp only
      rw [hH, if_neg (show ¬ (style .datagram).toList = "RAW".toList by decide)]
    rw [this]
    dsimp only
    cases hh : last os "HOST" with
    | none =>
      rw [if_pos (by rfl), AMap.get_put, if_neg (by decide), AMap.get_del, if_neg (by decide), AMap.get_del, if_neg (by decide), hg, hd, hc]
      refine ⟨_, rfl, ?_⟩
      intro x
      rw [AMap.get_del, AMap.get_put, AMap.get_del, AMap.get_del, hg]
      unfold sessionOption
      simp only [toList_eq]
      by_cases h1 : x = "ID"
      · simp [h1]
      · by_cases h2 : x = "STYLE"
        · simp [h2]
        · by_cases h3 : x = "DESTINATION"
          · simp [h3]
          · by_cases h4 : x = "HOST"
            · simp [h4, hh]
            · simp [h1, h2, h3, h4]
    | some v =>
      rw [if_neg (by simp), AMap.get_del, if_neg (by decide), AMap.get_del, if_neg (by decide), hg, hd, hc]
      refine ⟨_, rfl, ?_⟩
      intro x
      rw [AMap.get_del, AMap.get_del, AMap.get_del, hg]
      unfold sessionOption
      simp only [toList_eq]
      by_cases h1 : x = "ID"
      · simp [h1]
      · by_cases h2 : x = "STYLE"
        · simp [h2]
        · by_cases h3 : x = "DESTINATION"
          · simp [h3]
          · by_cases h4 : x = "HOST"
            · simp [h4, hh]
            · simp [h1, h2, h3, h4]
  | anonymous =>
    obtain ⟨p, hp⟩ := Option.isSome_iff_exists.mp (hp nofun)
    have hP : AMap.get (AMap.del (AMap.del m "ID".toList) "STYLE".toList) "PORT".toList = some p := by
      rw [AMap.get_del, if_neg (by decide), AMap.get_del, if_neg (by decide), hg, hp]
    have hH : AMap.get (AMap.del (AMap.del m "ID".toList) "STYLE".toList) "HOST".toList = last os "HOST" := by
      rw [AMap.get_del, if_neg (by decide), AMap.get_del, if_neg (by decide), hg]
    have : kind (AMap.del (AMap.del m "ID".toList) "STYLE".toList) (some (style .anonymous).toList) = some (.anonymous, if (last os "HOST").isNone then (AMap.del (AMap.del m "ID".toList) "STYLE".toList).put "HOST".toList "127.0.0.1".toList else AMap.del (AMap.del m "ID".toList) "STYLE".toList) := by
      unfold kind
      dsimp only
      rw [if_neg (show ¬ (style .anonymous).toList = "STREAM".toList by decide), if_pos (show _ ∨ _ by decide), hP]
      dsimp only
      rw [hH, if_pos (show (style .anonymous).toList = "RAW".toList by decide)]
    rw [this]
    dsimp only
    cases hh : last os "HOST" with
    | none =>
      rw [if_pos (by rfl), AMap.get_put, if_neg (by decide), AMap.get_del, if_neg (by decide), AMap.get_del, if_neg (by decide), hg, hd, hc]
      refine ⟨_, rfl, ?_⟩
      intro x
      rw [AMap.get_del, AMap.get_put, AMap.get_del, AMap.get_del, hg]
      unfold sessionOption
      simp only [toList_eq]
      by_cases h1 : x = "ID"
      · simp [h1]
      · by_cases h2 : x = "STYLE"
        · simp [h2]
        · by_cases h3 : x = "DESTINATION"
          · simp [h3]
          · by_cases h4 : x = "HOST"
            · simp [h4, hh]
            · simp [h1, h2, h3, h4]
    | some v =>
      rw [if_neg (by simp), AMap.get_del, if_neg (by decide), AMap.get_del, if_neg (by decide), hg, hd, hc]
      refine ⟨_, rfl, ?_⟩
      intro x
      rw [AMap.get_del, AMap.get_del, AMap.get_del, hg]
      unfold sessionOption
      simp only [toList_eq]
      by_cases h1 : x = "ID"
      · simp [h1]
      · by_cases h2 : x = "STYLE"
        · simp [h2]
        · by_cases h3 : x = "DESTINATION"
          · simp [h3]
          · by_cases h4 : x = "HOST"
            · simp [h4, hh]
            · simp [h1, h2, h3, h4]

/-- A session with a new destination. -/
theorem C165_create_partial {D : Type} (e : Env D) (os : List Opt) (ho : ∀ o ∈ os, o.Ok) (id : Str) (k : Kind)
    (hid : last os "ID" = some id) (hst : last os "STYLE" = some (style k).toList) (hd : last os "DESTINATION" = some "TRANSIENT".toList) (hp : k ≠ .stream → (last os "PORT").isSome) :
    ∃ opts, parse e (line "SESSION" "CREATE" os) = .ok (.create id k .transient opts) ∧ ∀ x : String, AMap.get opts x.toList = sessionOption os (decide (k ≠ .stream)) x :=
  create_of e os ho id k _ _ hid hst hd hp (by unfold ctx; dsimp only; rw [if_pos rfl])

/-- A session with a destination of the client: the destination and its two private keys, 32 bytes each, in base 64. -/
theorem C165_keys_partial {D : Type} (e : Env D) (os : List Opt) (ho : ∀ o ∈ os, o.Ok) (id : Str) (k : Kind) (t : Str) (raw priv sign more : Bytes) (d : D)
    (hid : last os "ID" = some id) (hst : last os "STYLE" = some (style k).toList) (hd : last os "DESTINATION" = some t) (ht : t ≠ "TRANSIENT".toList) (hp : k ≠ .stream → (last os "PORT").isSome)
    (h64 : e.base64 t = some raw) (hraw : e.dest raw = some (d, priv ++ sign ++ more)) (h1 : priv.length = 32) (h2 : sign.length = 32) :
    ∃ opts, parse e (line "SESSION" "CREATE" os) = .ok (.create id k (.given d priv sign) opts) ∧ ∀ x : String, AMap.get opts x.toList = sessionOption os (decide (k ≠ .stream)) x := by
  refine create_of e os ho id k _ _ hid hst hd hp ?_
  unfold ctx
  dsimp only
  rw [if_neg ht, h64]
  dsimp only
  rw [hraw]
  dsimp only
  rw [if_pos (by simp only [List.length_append]; omega)]
  have e1 : (priv ++ sign ++ more).take 32 = priv := by rw [List.append_assoc, ← h1, List.take_left]
  have e2 : ((priv ++ sign ++ more).drop 32).take 32 = sign := by rw [List.append_assoc, ← h1, List.drop_left, h1, ← h2, List.take_left]
  rw [e1, e2]

/-- A destination of the client without room for its two private keys after it is refused. -/
theorem C165_short_keys {D : Type} (e : Env D) (os : List Opt) (ho : ∀ o ∈ os, o.Ok) (t : Str) (raw rest : Bytes) (d : D)
    (hd : last os "DESTINATION" = some t) (ht : t ≠ "TRANSIENT".toList) (h64 : e.base64 t = some raw)
    (hraw : e.dest raw = some (d, rest)) (hl : rest.length < 64) :
    parse e (line "SESSION" "CREATE" os) = .err := by
  rw [parse_plain e _ _ (by decide) (by decide) os ho]
  unfold command
  rw [if_neg (by decide), if_pos ⟨rfl, rfl⟩]
  generalize hm : AMap.puts [] (os.map fun o => (o.key, o.val)) = m
  have hg : ∀ x : String, AMap.get m x.toList = last os x := fun x => by rw [← hm]; exact get_last os x
  have hc : ctx e (some t) = none := by
    unfold ctx
    dsimp only
    rw [if_neg ht, h64]
    dsimp only
    rw [hraw]
    dsimp only
    rw [if_neg (by omega)]
  have : create e m = (none : Option (Cmd D)) := by
    unfold create
    rw [hg]
    cases hi : last os "ID" with
    | none => rfl
    | some id =>
      dsimp only
      rw [AMap.get_del, if_neg (by decide), hg]
      cases hk : kind (AMap.del (AMap.del m "ID".toList) "STYLE".toList) (last os "STYLE") with
      | none => rfl
      | some x =>
        obtain ⟨k, o⟩ := x
        dsimp only
        have : AMap.get o "DESTINATION".toList = some t := by
          unfold kind at hk
          split at hk
          · cases hk
          · split at hk
            · cases hk
              rw [AMap.get_del, if_neg (by decide), AMap.get_del, if_neg (by decide), hg, hd]
            · split at hk
              · split at hk
                · cases hk
                · cases hk
                  split
                  · rw [AMap.get_put, if_neg (by decide), AMap.get_del, if_neg (by decide), AMap.get_del, if_neg (by decide), hg, hd]
                  · rw [AMap.get_del, if_neg (by decide), AMap.get_del, if_neg (by decide), hg, hd]
              · cases hk
        rw [this, hc]
  rw [this]
  rfl

/-- A session needs a name, a style and a destination, and a port if it is for datagrams. -/
theorem C165_refused {D : Type} (e : Env D) (os : List Opt) (ho : ∀ o ∈ os, o.Ok)
    (h : last os "ID" = none ∨ last os "STYLE" = none ∨ last os "DESTINATION" = none ∨ ((last os "STYLE" = some "RAW".toList ∨ last os "STYLE" = some "DATAGRAM".toList) ∧ last os "PORT" = none)) :
    parse e (line "SESSION" "CREATE" os) = .err := by
  rw [parse_plain e _ _ (by decide) (by decide) os ho]
  unfold command
  rw [if_neg (by decide), if_pos ⟨rfl, rfl⟩]
  generalize hm : AMap.puts [] (os.map fun o => (o.key, o.val)) = m
  have hg : ∀ x : String, AMap.get m x.toList = last os x := fun x => by rw [← hm]; exact get_last os x
  have : create e m = (none : Option (Cmd D)) := by
    unfold create
    rw [hg]
    cases hi : last os "ID" with
    | none => rfl
    | some id =>
      dsimp only
      rw [AMap.get_del, if_neg (by decide), hg]
      cases hk : kind (AMap.del (AMap.del m "ID".toList) "STYLE".toList) (last os "STYLE") with
      | none => rfl
      | some x =>
        obtain ⟨k, o⟩ := x
        dsimp only
        rw [hi] at h
        rcases h with h | h | h | ⟨h, hp⟩
        · cases h
        · rw [h] at hk
          cases hk
        · have : AMap.get o "DESTINATION".toList = none := by
            unfold kind at hk
            split at hk
            · cases hk
            · split at hk
              · cases hk
                rw [AMap.get_del, if_neg (by decide), AMap.get_del, if_neg (by decide), hg, h]
              · split at hk
                · split at hk
                  · cases hk
                  · cases hk
                    split
                    · rw [AMap.get_put, if_neg (by decide), AMap.get_del, if_neg (by decide), AMap.get_del, if_neg (by decide), hg, h]
                    · rw [AMap.get_del, if_neg (by decide), AMap.get_del, if_neg (by decide), hg, h]
                · cases hk
          rw [this]
          rfl
        · have : AMap.get (AMap.del (AMap.del m "ID".toList) "STYLE".toList) "PORT".toList = none := by
            rw [AMap.get_del, if_neg (by decide), AMap.get_del, if_neg (by decide), hg, hp]
          exfalso
          unfold kind at hk
          rcases h with h | h <;> rw [h] at hk <;> dsimp only at hk <;> rw [if_neg (by decide), if_pos (by decide), this] at hk <;> cases hk
  rw [this]
  rfl

theorem C165_accept {D : Type} (e : Env D) (os : List Opt) (ho : ∀ o ∈ os, o.Ok) (id : Str) (hid : last os "ID" = some id) :
    ∃ opts, parse e (line "STREAM" "ACCEPT" os) = .ok (.accept id opts) ∧ ∀ x : String, AMap.get opts x.toList = last os x := by
  rw [parse_plain e _ _ (by decide) (by decide) os ho]
  unfold command
  rw [if_neg (by decide), if_neg (by decide), if_neg (by decide), if_pos ⟨rfl, rfl⟩]
  unfold accept
  rw [get_last, hid]
  exact ⟨_, rfl, get_last os⟩

theorem C165_connect {D : Type} (e : Env D) (os : List Opt) (ho : ∀ o ∈ os, o.Ok) (id d : Str) (h : Host D) (hid : last os "ID" = some id) (hd : last os "DESTINATION" = some d) (hh : host e d = .ok h) :
    ∃ opts, parse e (line "STREAM" "CONNECT" os) = .ok (.connect id h opts) ∧ ∀ x : String, AMap.get opts x.toList = last os x := by
  rw [parse_plain e _ _ (by decide) (by decide) os ho]
  unfold command
  rw [if_neg (by decide), if_neg (by decide), if_pos ⟨rfl, rfl⟩]
  unfold connect
  rw [get_last, get_last, hid, hd]
  dsimp only
  rw [hh]
  exact ⟨_, rfl, get_last os⟩

theorem C165_lookup {D : Type} (e : Env D) (os : List Opt) (ho : ∀ o ∈ os, o.Ok) (n : Str) (hn : last os "NAME" = some n) : parse e (line "NAMING" "LOOKUP" os) = .ok (.lookup n) := by
  rw [parse_plain e _ _ (by decide) (by decide) os ho]
  unfold command
  rw [if_neg (by decide), if_neg (by decide), if_neg (by decide), if_neg (by decide), if_neg (by decide), if_pos ⟨rfl, rfl⟩]
  unfold naming
  rw [get_last, hn]
  rfl

theorem C165_generate {D : Type} (e : Env D) (os : List Opt) (ho : ∀ o ∈ os, o.Ok) :
    parse e (line "DEST" "GENERATE" os) = if last os "SIGNATURE_TYPE" = some "7".toList then .ok .generate else .err := by
  rw [parse_plain e _ _ (by decide) (by decide) os ho]
  unfold command
  rw [if_neg (by decide), if_neg (by decide), if_neg (by decide), if_neg (by decide), if_neg (by decide), if_neg (by decide), if_pos ⟨rfl, rfl⟩]
  unfold generate
  rw [get_last]
  split <;> rfl

end Emissary.SamParser
