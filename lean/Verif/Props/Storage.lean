import Verif.Model.Storage
/-!
# C217 to C219: router infos and profiles survive restarts
-/
namespace Emissary.Storage

/-! ## Specification -/

/-- An identifier of a router: base64 has neither `.` nor `/`. -/
def Good (id : List Char) : Prop := id ≠ [] ∧ '.' ∉ id ∧ '/' ∉ id

/-- The files of a router. -/
def ikey (id : List Char) : Key := ⟨.netDb, id.headD ' ', infoTag ++ id ++ dat⟩
def pkey (id : List Char) : Key := ⟨.profiles, id.headD ' ', tag ++ id ++ ext⟩

/-- A profile with its times cut to whole seconds. -/
def seconds (p : Profile) : Profile :=
  { p with
    lastActivity := p.lastActivity / 1000 * 1000
    lastDeclined := p.lastDeclined.map (· / 1000 * 1000)
    lastDialFailure := p.lastDialFailure.map (· / 1000 * 1000) }

/-- The text occurs. -/
def Occurs (pat s : List Char) : Prop := ∃ a b, s = a ++ pat ++ b

/-! ## `find` -/

theorem isPrefixOf_iff (a b : List Char) : a.isPrefixOf b = true ↔ ∃ c, b = a ++ c := by
  rw [List.isPrefixOf_iff_prefix]
  exact ⟨fun ⟨c, h⟩ => ⟨c, h.symm⟩, fun ⟨c, h⟩ => ⟨c, h.symm⟩⟩

theorem find_some (pat : List Char) : ∀ (s : List Char) (i : Nat), find pat s = some i → ∃ a b, s = a ++ pat ++ b ∧ a.length = i := by
  intro s
  induction s with
  | nil =>
    intro i h
    simp only [find] at h
    split at h
    · next hp => injection h with h; exact ⟨[], [], by simp [hp], by simp [h]⟩
    · cases h
  | cons c s ih =>
    intro i h
    simp only [find] at h
    split at h
    · next hp =>
      injection h with h
      obtain ⟨b, hb⟩ := (isPrefixOf_iff _ _).1 hp
      exact ⟨[], b, by simpa using hb, by simp [h]⟩
    · cases hf : find pat s with
      | none => rw [hf] at h; cases h
      | some j =>
        rw [hf] at h
        injection h with h
        obtain ⟨a, b, h1, h2⟩ := ih j hf
        exact ⟨c :: a, b, by simp [h1], by simp [h2, ← h]⟩

theorem find_none (pat : List Char) (hp : pat ≠ []) (s : List Char) : find pat s = none ↔ ¬ Occurs pat s := by
  induction s with
  | nil =>
    simp only [find, hp, if_false, true_iff]
    rintro ⟨a, b, h⟩
    have := congrArg List.length h
    simp at this
    exact hp (List.length_eq_zero_iff.1 (by omega))
  | cons c s ih =>
    simp only [find]
    split
    · next h =>
      obtain ⟨b, hb⟩ := (isPrefixOf_iff _ _).1 h
      simp only [reduceCtorEq, false_iff, Classical.not_not]
      exact ⟨[], b, by simpa using hb⟩
    · next h =>
      rw [Option.map_eq_none_iff, ih]
      refine not_congr ⟨?_, ?_⟩
      · rintro ⟨a, b, hab⟩; exact ⟨c :: a, b, by simp [hab]⟩
      · rintro ⟨a, b, hab⟩
        cases a with
        | nil => exact absurd ((isPrefixOf_iff _ _).2 ⟨b, by simpa using hab⟩) h
        | cons x a => simp at hab; exact ⟨a, b, by simp [hab.2]⟩

theorem prefix_sep (pat x v : List Char) (sep : Char) (hs : sep ∉ pat) :
    pat.isPrefixOf (x ++ sep :: v) = pat.isPrefixOf x := by
  induction pat generalizing x with
  | nil => simp
  | cons p pat ih =>
    simp only [List.mem_cons, not_or] at hs
    cases x with
    | nil => simp [List.isPrefixOf, Ne.symm hs.1]
    | cons y x => simp [List.isPrefixOf, ih x hs.2]

/-- A text without `/` is in one part of a path. -/
theorem find_sep (pat : List Char) (hp : pat ≠ []) (hs : '/' ∉ pat) (u v : List Char) :
    find pat (u ++ '/' :: v) = match find pat u with
      | some i => some i
      | none => (find pat v).map (· + (u.length + 1)) := by
  induction u with
  | nil =>
    simp only [List.nil_append, find, hp, if_false]
    rw [if_neg]
    · simp
    · have := prefix_sep pat [] v '/' hs
      simp only [List.nil_append] at this
      rw [this]
      cases pat with
      | nil => exact absurd rfl hp
      | cons => simp
  | cons c u ih =>
    have h := prefix_sep pat (c :: u) v '/' hs
    simp only [List.cons_append] at h
    simp only [List.cons_append, find, h]
    split
    · rfl
    · rw [ih]
      cases find pat u with
      | some i => rfl
      | none =>
        cases find pat v with
        | none => rfl
        | some j => simp; omega

theorem find_short (pat s : List Char) (h : s.length < pat.length) : find pat s = none := by
  have hp : pat ≠ [] := by intro h'; rw [h'] at h; simp at h
  rw [find_none pat hp]
  rintro ⟨a, b, hab⟩
  have := congrArg List.length hab
  simp at this
  omega

/-- The first `.toml` in a name with one. -/
theorem find_dot (t u : List Char) (hu : '.' ∉ u) : find ('.' :: t) (u ++ '.' :: t) = some u.length := by
  induction u with
  | nil =>
    simp only [List.nil_append, find]
    rw [if_pos ((isPrefixOf_iff _ _).2 ⟨[], by simp⟩)]
    rfl
  | cons c u ih =>
    simp only [List.mem_cons, not_or] at hu
    simp only [List.cons_append, find]
    rw [if_neg, ih hu.2]
    · rfl
    · simp [List.isPrefixOf, hu.1]

theorem find_head (pat v : List Char) (hp : pat ≠ []) : find pat (pat ++ v) = some 0 := by
  cases pat with
  | nil => exact absurd rfl hp
  | cons c pat =>
    simp only [List.cons_append, find]
    rw [if_pos ((isPrefixOf_iff _ _).2 ⟨v, by simp⟩)]

/-! ## C217: the name of the router of a profile -/

theorem path_find (pat base : List Char) (k : Key) (hk : k.kind = .profiles) (h5 : 5 ≤ pat.length) (hs : '/' ∉ pat)
    (hpp : find pat profilesName = none) : find pat (path base k) = match find pat base with
      | some i => some i
      | none => (find pat k.name).map (· + (base.length + 17)) := by
  have hp : pat ≠ [] := by intro h; rw [h] at h5; simp at h5
  have e : path base k = base ++ '/' :: (profilesName ++ '/' :: (['p', k.dir] ++ '/' :: k.name)) := by
    unfold path; rw [hk]; simp
  rw [e, find_sep pat hp hs, find_sep pat hp hs, find_sep pat hp hs, hpp, find_short pat ['p', k.dir] (by simp; omega)]
  cases find pat base with
  | some i => rfl
  | none =>
    cases find pat k.name with
    | none => rfl
    | some j => simp [profilesName]; omega

theorem name_tag (id : List Char) : find tag (pkey id).name = some 0 := by
  show find tag (tag ++ id ++ ext) = some 0
  rw [List.append_assoc]
  exact find_head _ _ (by decide)

theorem name_ext (id : List Char) (h : '.' ∉ id) : find ext (pkey id).name = some (8 + id.length) := by
  show find ('.' :: ['t', 'o', 'm', 'l']) (tag ++ id ++ '.' :: ['t', 'o', 'm', 'l']) = _
  rw [find_dot]
  · simp [tag]; omega
  · simp only [List.mem_append, not_or]; exact ⟨by decide, h⟩

/-- **C217**, in part: if neither `profile-` nor `.toml` is in the path of the data directory, the name
that is read back from the profile of a router is its identifier. -/
theorem C217_name_partial (base id : List Char) (hid : Good id) (h1 : ¬ Occurs tag base) (h2 : ¬ Occurs ext base) :
    extract (path base (pkey id)) = .name id := by
  have a := path_find tag base (pkey id) rfl (by decide) (by decide) (by decide)
  have b := path_find ext base (pkey id) rfl (by decide) (by decide) (by decide)
  rw [(find_none _ (by decide) _).2 h1, name_tag] at a
  rw [(find_none _ (by decide) _).2 h2, name_ext id hid.2.1] at b
  simp only [Option.map_some] at a b
  unfold extract
  rw [a]
  dsimp only
  rw [b]
  dsimp only
  rw [if_pos (by omega)]
  congr 1
  have e : path base (pkey id) = (base ++ '/' :: (profilesName ++ '/' :: (['p', (pkey id).dir] ++ '/' :: tag))) ++ (id ++ ext) := by
    unfold path; simp [pkey, tag, ext]
  rw [e]
  have hl : (base ++ '/' :: (profilesName ++ '/' :: (['p', (pkey id).dir] ++ '/' :: tag))).length = 0 + (base.length + 17) + 8 := by
    simp [tag, profilesName]
  rw [show 8 + id.length + (base.length + 17) = (base ++ '/' :: (profilesName ++ '/' :: (['p', (pkey id).dir] ++ '/' :: tag))).length + id.length by
    rw [hl]; omega]
  rw [List.take_length_add_append, List.take_append_of_le_length (Nat.le_refl _), List.take_length, ← hl, List.drop_left]

/-- **C217**, violated: if `.toml` is in the path of the data directory, and not `profile-`, reading any
profile ends the program. -/
theorem C217_panic_violated (base : List Char) (id : List Char) (h1 : ¬ Occurs tag base) (h2 : Occurs ext base) :
    extract (path base (pkey id)) = .panics := by
  have a := path_find tag base (pkey id) rfl (by decide) (by decide) (by decide)
  have b := path_find ext base (pkey id) rfl (by decide) (by decide) (by decide)
  rw [(find_none _ (by decide) _).2 h1, name_tag] at a
  cases hf : find ext base with
  | none => exact absurd h2 ((find_none _ (by decide) _).1 hf)
  | some j =>
    obtain ⟨x, y, hxy, hj⟩ := find_some _ _ _ hf
    have := congrArg List.length hxy
    rw [hf] at b
    simp only [Option.map_some] at a b
    unfold extract
    rw [a]
    dsimp only
    rw [b]
    dsimp only
    rw [if_neg]
    simp [ext] at this
    omega

/-- **C217**, violated: if `profile-` is in the path of the data directory, and not `.toml`, the name is
never that of a router. -/
theorem C217_other_violated (base id n : List Char) (hid : Good id) (h1 : Occurs tag base) (h2 : ¬ Occurs ext base)
    (h : extract (path base (pkey id)) = .name n) : ¬ Good n := by
  have a := path_find tag base (pkey id) rfl (by decide) (by decide) (by decide)
  have b := path_find ext base (pkey id) rfl (by decide) (by decide) (by decide)
  rw [(find_none _ (by decide) _).2 h2, name_ext id hid.2.1] at b
  cases hf : find tag base with
  | none => exact absurd h1 ((find_none _ (by decide) _).1 hf)
  | some i =>
    obtain ⟨x, y, hxy, hi⟩ := find_some _ _ _ hf
    have hlen := congrArg List.length hxy
    simp [tag] at hlen
    rw [hf] at a
    simp only [Option.map_some] at a b
    unfold extract at h
    rw [a] at h
    dsimp only at h
    rw [b] at h
    dsimp only at h
    rw [if_pos (by omega)] at h
    injection h with h
    rintro ⟨-, -, hn⟩
    apply hn
    rw [← h]
    refine List.mem_iff_getElem.2 ⟨base.length - (i + 8), ?_, ?_⟩
    · simp [path, pkey]; omega
    · rw [List.getElem_drop, List.getElem_take]
      unfold path
      rw [List.getElem_append_right (by omega)]
      simp [show i + 8 + (base.length - (i + 8)) - base.length = 0 by omega]

/-! ## Writing -/

/-- The changes that write these files one after the other. -/
def flat (bl : List (Key × Bytes)) : List Eff := bl.flatMap fun x => .create x.1 :: x.2.map (.byte x.1)

theorem applyAll_append (fs : FS) (a b : List Eff) : fs.applyAll (a ++ b) = (fs.applyAll a).applyAll b := by
  simp [FS.applyAll]

theorem applyAll_cons (fs : FS) (a : Eff) (b : List Eff) : fs.applyAll (a :: b) = (fs.apply a).applyAll b := rfl

theorem dirs_eq (es : List Eff) : ∀ fs : FS, (fs.applyAll es).dirs = fs.dirs := by
  induction es with
  | nil => intro fs; rfl
  | cons e es ih => intro fs; rw [applyAll_cons, ih]; cases e <;> rfl

theorem ok_apply (es : List Eff) : ∀ fs : FS, AMap.Ok fs.files → AMap.Ok (fs.applyAll es).files := by
  induction es with
  | nil => intro fs h; exact h
  | cons e es ih => intro fs h; rw [applyAll_cons]; refine ih _ ?_; cases e <;> exact AMap.ok_put h _ _

theorem bytes_get (k : Key) (bs : Bytes) : ∀ (fs : FS) (old : Bytes), fs.files.get k = some old →
    (fs.applyAll (bs.map (.byte k))).files.get k = some (old ++ bs) := by
  induction bs with
  | nil => intro fs old h; simpa [FS.applyAll] using h
  | cons b bs ih =>
    intro fs old h
    rw [List.map_cons, applyAll_cons, ih (fs.apply (.byte k b)) (old ++ [b]) (by simp [FS.apply, h])]
    simp

theorem bytes_other (k k' : Key) (hk : k' ≠ k) (bs : Bytes) : ∀ (fs : FS),
    (fs.applyAll (bs.map (.byte k))).files.get k' = fs.files.get k' := by
  induction bs with
  | nil => intro fs; rfl
  | cons b bs ih => intro fs; rw [List.map_cons, applyAll_cons, ih]; simp [FS.apply, hk]

theorem block_get (fs : FS) (k k' : Key) (bs : Bytes) :
    (fs.applyAll (.create k :: bs.map (.byte k))).files.get k' = if k' = k then some bs else fs.files.get k' := by
  rw [applyAll_cons]
  split
  · next h => subst h; rw [bytes_get k' bs (fs.apply (.create k')) [] (by simp [FS.apply])]; simp
  · next h => rw [bytes_other k k' h]; simp [FS.apply, h]

theorem flat_cons (x : Key × Bytes) (bl : List (Key × Bytes)) : flat (x :: bl) = (.create x.1 :: x.2.map (.byte x.1)) ++ flat bl := by
  simp [flat]

theorem flat_append (a b : List (Key × Bytes)) : flat (a ++ b) = flat a ++ flat b := by
  simp [flat]

theorem flat_other (bl : List (Key × Bytes)) (k : Key) : ∀ fs : FS, k ∉ bl.map (·.1) →
    (fs.applyAll (flat bl)).files.get k = fs.files.get k := by
  induction bl with
  | nil => intro fs _; rfl
  | cons x bl ih =>
    intro fs h
    simp only [List.map_cons, List.mem_cons, not_or] at h
    rw [flat_cons, applyAll_append, ih _ h.2, block_get, if_neg h.1]

theorem flat_mem (bl : List (Key × Bytes)) (k : Key) (bs : Bytes) : ∀ fs : FS, (bl.map (·.1)).Nodup → (k, bs) ∈ bl →
    (fs.applyAll (flat bl)).files.get k = some bs := by
  induction bl with
  | nil => intro fs _ h; cases h
  | cons x bl ih =>
    intro fs hn h
    simp only [List.map_cons, List.nodup_cons] at hn
    rw [flat_cons, applyAll_append]
    rcases List.mem_cons.1 h with rfl | h
    · rw [flat_other _ _ _ hn.1, block_get, if_pos rfl]
    · exact ih _ hn.2 h

theorem take_block (k : Key) (bs : Bytes) (n : Nat) :
    ((Eff.create k :: bs.map (.byte k)).take n) = [] ∨
    ∃ m, ((Eff.create k :: bs.map (.byte k)).take n) = .create k :: (bs.take m).map (.byte k) := by
  cases n with
  | zero => exact .inl rfl
  | succ n => exact .inr ⟨n, by rw [List.take_succ_cons, List.map_take]⟩

/-- Stopped anywhere, every file is as before or is a beginning of what was to be written. -/
theorem flat_take (bl : List (Key × Bytes)) : ∀ (fs : FS) (n : Nat) (k : Key), (bl.map (·.1)).Nodup →
    (fs.applyAll ((flat bl).take n)).files.get k = fs.files.get k ∨
    ∃ c full, (fs.applyAll ((flat bl).take n)).files.get k = some c ∧ (k, full) ∈ bl ∧ c <+: full := by
  induction bl with
  | nil => intro fs n k _; left; simp [flat, FS.applyAll]
  | cons x bl ih =>
    intro fs n k hn
    simp only [List.map_cons, List.nodup_cons] at hn
    rw [flat_cons, List.take_append]
    by_cases hlen : n < (Eff.create x.1 :: x.2.map (.byte x.1)).length
    · rw [Nat.sub_eq_zero_of_le (Nat.le_of_lt hlen), List.take_zero, List.append_nil]
      rcases take_block x.1 x.2 n with h | ⟨m, h⟩
      · left; rw [h]; rfl
      · rw [h, block_get]
        split
        · next hk => subst hk; exact .inr ⟨_, x.2, rfl, by simp, List.take_prefix _ _⟩
        · left; rfl
    · rw [List.take_of_length_le (by omega), applyAll_append]
      have h1 := ih (fs.applyAll (.create x.1 :: x.2.map (.byte x.1)))
        (n - (Eff.create x.1 :: x.2.map (.byte x.1)).length) k hn.2
      rcases h1 with h1 | ⟨c, full, h1, h2, h3⟩
      · rw [h1, block_get]
        split
        · next hk => subst hk; exact .inr ⟨_, x.2, rfl, by simp, List.prefix_refl _⟩
        · left; rfl
      · exact .inr ⟨c, full, h1, by simp [h2], h3⟩

/-! ## What a batch writes -/

theorem infoName_eq (id : List Char) (h : Good id) : infoName id = (ikey id).name := by
  unfold infoName
  rw [if_neg]
  · rfl
  · rw [List.isSuffixOf_iff_suffix]
    rintro ⟨x, hx⟩
    exact h.2.1 (by rw [← hx]; simp [dat])

theorem head_good {id : List Char} (h : Good id) : id.head? = some (id.headD ' ') := by
  cases id with
  | nil => exact absurd rfl h.1
  | cons c id => rfl

theorem pkey_ne_ikey (a b : List Char) : pkey a ≠ ikey b := by
  intro h
  have := congrArg Key.kind h
  simp [pkey, ikey] at this

theorem pkey_inj {a b : List Char} (h : pkey a = pkey b) : a = b := by
  have := congrArg Key.name h
  simp only [pkey, List.append_assoc, List.append_cancel_left_eq] at this
  exact List.append_cancel_right this

theorem ikey_inj {a b : List Char} (h : ikey a = ikey b) : a = b := by
  have := congrArg Key.name h
  simp only [ikey, List.append_assoc, List.append_cancel_left_eq] at this
  exact List.append_cancel_right this

/-- The router info that is given can be stored. -/
def HasInfo (e : Env) (r : Router) (raw : Bytes) : Prop := ∃ gz, r.info = some gz ∧ e.gunzip gz = some raw

/-- There are directories for the router. -/
def HasDirs (fs : FS) (id : List Char) : Prop := (Kind.netDb, id.headD ' ') ∈ fs.dirs ∧ (Kind.profiles, id.headD ' ') ∈ fs.dirs

theorem write_blocks (fs : FS) (k : Key) (bs : Bytes) :
    write fs k bs = flat (if (k.kind, k.dir) ∈ fs.dirs then [(k, bs)] else []) := by
  unfold write
  split <;> simp [flat]

theorem saveOne_blocks (e : Env) (fs : FS) (r : Router) (hr : Good r.id) :
    ∃ bl, saveOne e fs r = flat bl ∧ (bl.map (·.1)).Nodup ∧ (∀ x ∈ bl, x.1 = ikey r.id ∨ x.1 = pkey r.id) ∧
      (HasDirs fs r.id → ∀ raw, HasInfo e r raw → (ikey r.id, raw) ∈ bl) ∧
      (HasDirs fs r.id → (fs.files.get (ikey r.id) ≠ none ∨ ∃ raw, HasInfo e r raw) →
        (pkey r.id, e.render (.of r.profile)) ∈ bl) := by
  have hI : ∃ b1, saveInfo e fs r = flat b1 ∧
      (b1 = [] ∨ ∃ raw, b1 = [(ikey r.id, raw)]) ∧
      (HasDirs fs r.id → ∀ raw, HasInfo e r raw → b1 = [(ikey r.id, raw)]) := by
    unfold saveInfo
    cases hinfo : r.info with
    | none => exact ⟨[], rfl, .inl rfl, by rintro - raw ⟨gz, h, -⟩; rw [hinfo] at h; cases h⟩
    | some gz =>
      dsimp only
      cases hg : e.gunzip gz with
      | none =>
        refine ⟨[], rfl, .inl rfl, ?_⟩
        rintro - raw ⟨gz', h, h'⟩
        rw [hinfo] at h; injection h with h; subst h; rw [hg] at h'; cases h'
      | some info =>
        dsimp only
        refine ⟨_, by unfold storeInfo; rw [head_good hr]; dsimp only; rw [infoName_eq r.id hr]; exact write_blocks fs _ _, ?_, ?_⟩
        · split
          · exact .inr ⟨info, rfl⟩
          · exact .inl rfl
        · rintro ⟨h1, -⟩ raw ⟨gz', h, h'⟩
          rw [hinfo] at h; injection h with h; subst h; rw [hg] at h'; injection h' with h'; subst h'
          rw [if_pos h1]
          rfl
  obtain ⟨b1, he1, hsh, hcon⟩ := hI
  have hP : ∃ b2, storeProfile e (fs.applyAll (flat b1)) r.id r.profile = flat b2 ∧
      (b2 = [] ∨ b2 = [(pkey r.id, e.render (.of r.profile))]) ∧
      (HasDirs fs r.id → (fs.applyAll (flat b1)).files.get (ikey r.id) ≠ none →
        b2 = [(pkey r.id, e.render (.of r.profile))]) := by
    unfold storeProfile
    rw [head_good hr]
    dsimp only
    change ∃ b2, (match (fs.applyAll (flat b1)).files.get (ikey r.id) with | none => [] | some _ => _) = flat b2 ∧ _
    cases hx : (fs.applyAll (flat b1)).files.get (ikey r.id) with
    | none => exact ⟨[], rfl, .inl rfl, by intro _ h; exact absurd rfl h⟩
    | some y =>
      dsimp only
      refine ⟨_, write_blocks _ (pkey r.id) _, ?_, ?_⟩
      · split
        · exact .inr rfl
        · exact .inl rfl
      · rintro ⟨-, h⟩ -
        rw [if_pos]
        rw [dirs_eq]
        exact h
  obtain ⟨b2, he2, hsh2, hcon2⟩ := hP
  refine ⟨b1 ++ b2, ?_, ?_, ?_, ?_, ?_⟩
  · unfold saveOne
    rw [he1, flat_append, he2]
  · rcases hsh with rfl | ⟨raw, rfl⟩ <;> rcases hsh2 with rfl | rfl <;> simp
    exact fun h => pkey_ne_ikey _ _ h.symm
  · intro x hx
    rcases hsh with rfl | ⟨raw, rfl⟩ <;> rcases hsh2 with rfl | rfl <;> simp at hx
    · exact .inr (by rw [hx])
    · exact .inl (by rw [hx])
    · rcases hx with hx | hx
      · exact .inl (by rw [hx])
      · exact .inr (by rw [hx])
  · intro hd raw hraw
    rw [hcon hd raw hraw]
    simp
  · intro hd hex
    rw [hcon2 hd]
    · simp
    · rcases hex with hex | ⟨raw, hraw⟩
      · rcases hsh with rfl | ⟨raw, rfl⟩
        · exact hex
        · rw [flat_mem _ (ikey r.id) raw _ (by simp) (by simp)]; simp
      · rw [hcon hd raw hraw, flat_mem _ (ikey r.id) raw _ (by simp) (by simp)]; simp

theorem save_blocks (e : Env) (rs : List Router) : ∀ (fs : FS), (∀ r ∈ rs, Good r.id) → (rs.map (·.id)).Nodup →
    ∃ bl, save e fs rs = flat bl ∧ (bl.map (·.1)).Nodup ∧ (∀ x ∈ bl, ∃ r ∈ rs, x.1 = ikey r.id ∨ x.1 = pkey r.id) ∧
      ∀ r ∈ rs, HasDirs fs r.id →
        (∀ raw, HasInfo e r raw → (ikey r.id, raw) ∈ bl) ∧
        ((fs.files.get (ikey r.id) ≠ none ∨ ∃ raw, HasInfo e r raw) → (pkey r.id, e.render (.of r.profile)) ∈ bl) := by
  induction rs with
  | nil => intro fs _ _; exact ⟨[], rfl, by simp, by simp, by simp⟩
  | cons r rs ih =>
    intro fs hg hn
    simp only [List.map_cons, List.nodup_cons] at hn
    obtain ⟨b1, h1, h2, h3, h4, h5⟩ := saveOne_blocks e fs r (hg r (by simp))
    obtain ⟨b2, g1, g2, g3, g4⟩ := ih (fs.applyAll (saveOne e fs r)) (fun x hx => hg x (by simp [hx])) hn.2
    have hne : ∀ r' ∈ rs, r'.id ≠ r.id := fun r' hr' h => hn.1 (by rw [← h]; exact List.mem_map_of_mem hr')
    refine ⟨b1 ++ b2, ?_, ?_, ?_, ?_⟩
    · rw [flat_append, ← h1, ← g1]; rfl
    · rw [List.map_append, List.nodup_append]
      refine ⟨h2, g2, ?_⟩
      intro a ha b hb hab
      subst hab
      obtain ⟨x, hx, rfl⟩ := List.mem_map.1 ha
      obtain ⟨y, hy, hxy⟩ := List.mem_map.1 hb
      obtain ⟨r', hr', hy'⟩ := g3 y hy
      have hx' := h3 x hx
      rw [hxy] at hy'
      rcases hx' with hx' | hx' <;> rcases hy' with hy' | hy'
      · exact hne r' hr' (ikey_inj (hy'.symm.trans hx'))
      · exact pkey_ne_ikey _ _ (hy'.symm.trans hx')
      · exact pkey_ne_ikey _ _ (hx'.symm.trans hy')
      · exact hne r' hr' (pkey_inj (hy'.symm.trans hx'))
    · intro x hx
      rcases List.mem_append.1 hx with hx | hx
      · exact ⟨r, by simp, h3 x hx⟩
      · obtain ⟨r', hr', h⟩ := g3 x hx
        exact ⟨r', by simp [hr'], h⟩
    · intro r' hr' hd
      rcases List.mem_cons.1 hr' with rfl | hr'
      · exact ⟨fun raw hraw => List.mem_append_left _ (h4 hd raw hraw), fun hex => List.mem_append_left _ (h5 hd hex)⟩
      · have hd' : HasDirs (fs.applyAll (saveOne e fs r)) r'.id := by unfold HasDirs; rw [dirs_eq]; exact hd
        obtain ⟨a, b⟩ := g4 r' hr' hd'
        refine ⟨fun raw hraw => List.mem_append_right _ (a raw hraw), fun hex => List.mem_append_right _ (b ?_)⟩
        rcases hex with hex | hex
        · left
          rw [h1, flat_other]
          · exact hex
          · intro hm
            obtain ⟨x, hx, hxk⟩ := List.mem_map.1 hm
            rcases h3 x hx with h | h
            · exact hne r' hr' (ikey_inj (hxk.symm.trans h))
            · exact pkey_ne_ikey _ _ (h.symm.trans hxk)
        · exact .inr hex

/-! ## C218: what was saved is loaded -/

/-- The disk has only files of the program. -/
def Clean (fs : FS) : Prop := AMap.Ok fs.files ∧ ∀ k bs, fs.files.get k = some bs → k.kind = .profiles → ∃ id, Good id ∧ k = pkey id

/-- A batch that the router makes: good identifiers, every router once. -/
def Batch (o : Op) : Prop := (∀ r ∈ o.routers, Good r.id) ∧ (o.routers.map (·.id)).Nodup

theorem step_effects (e : Env) (fs : FS) (o : Op) (ho : Batch o) : ∃ bl n, step e fs o = fs.applyAll ((flat bl).take n) ∧
    (bl.map (·.1)).Nodup ∧ (∀ x ∈ bl, ∃ r ∈ o.routers, x.1 = ikey r.id ∨ x.1 = pkey r.id) := by
  obtain ⟨bl, h1, h2, h3, -⟩ := save_blocks e o.routers fs ho.1 ho.2
  unfold step
  cases o.stop with
  | none => exact ⟨bl, (flat bl).length, by rw [List.take_length, ← h1], h2, h3⟩
  | some n => exact ⟨bl, n, by rw [← h1], h2, h3⟩

theorem step_clean (e : Env) (fs : FS) (o : Op) (ho : Batch o) (h : Clean fs) : Clean (step e fs o) := by
  obtain ⟨bl, n, h1, h2, h3⟩ := step_effects e fs o ho
  refine ⟨by rw [h1]; exact ok_apply _ _ h.1, ?_⟩
  intro k bs hk hkind
  rw [h1] at hk
  rcases flat_take bl fs n k h2 with hx | ⟨c, full, -, hm, -⟩
  · rw [hx] at hk; exact h.2 k bs hk hkind
  · obtain ⟨r, hr, hrk⟩ := h3 _ hm
    rcases hrk with hrk | hrk
    · dsimp only at hrk; rw [hrk] at hkind; cases hkind
    · exact ⟨r.id, ho.1 r hr, hrk⟩

theorem run_clean (e : Env) (os : List Op) : ∀ fs : FS, (∀ o ∈ os, Batch o) → Clean fs → Clean (run e fs os) := by
  induction os with
  | nil => intro fs _ h; exact h
  | cons o os ih => intro fs ho h; exact ih _ (fun x hx => ho x (by simp [hx])) (step_clean e fs o (ho o (by simp)) h)

theorem step_dirs (e : Env) (fs : FS) (o : Op) : (step e fs o).dirs = fs.dirs := by
  unfold step
  split <;> exact dirs_eq _ _

theorem run_dirs (e : Env) (os : List Op) : ∀ fs : FS, (run e fs os).dirs = fs.dirs := by
  induction os with
  | nil => intro fs; rfl
  | cons o os ih => intro fs; exact (ih _).trans (step_dirs e fs o)

/-- Files of other routers are not changed. -/
theorem step_other (e : Env) (fs : FS) (o : Op) (ho : Batch o) (id : List Char) (h : ∀ r ∈ o.routers, r.id ≠ id)
    (k : Key) (hk : k = ikey id ∨ k = pkey id) : (step e fs o).files.get k = fs.files.get k := by
  obtain ⟨bl, n, h1, h2, h3⟩ := step_effects e fs o ho
  rw [h1]
  rcases flat_take bl fs n k h2 with hx | ⟨c, full, -, hm, -⟩
  · exact hx
  · obtain ⟨r, hr, hrk⟩ := h3 _ hm
    dsimp only at hrk
    exfalso
    rcases hk with rfl | rfl <;> rcases hrk with hrk | hrk
    · exact h r hr (ikey_inj hrk.symm)
    · exact pkey_ne_ikey _ _ hrk.symm
    · exact pkey_ne_ikey _ _ hrk
    · exact h r hr (pkey_inj hrk.symm)

theorem run_other (e : Env) (os : List Op) (id : List Char) (k : Key) (hk : k = ikey id ∨ k = pkey id) : ∀ fs : FS,
    (∀ o ∈ os, Batch o) → (∀ o ∈ os, ∀ r ∈ o.routers, r.id ≠ id) → (run e fs os).files.get k = fs.files.get k := by
  induction os with
  | nil => intro fs _ _; rfl
  | cons o os ih =>
    intro fs hb h
    exact (ih _ (fun x hx => hb x (by simp [hx])) (fun x hx => h x (by simp [hx]))).trans
      (step_other e fs o (hb o (by simp)) id (h o (by simp)) k hk)

theorem loadProfiles_mem (e : Env) (h1 : ¬ Occurs tag e.base) (h2 : ¬ Occurs ext e.base) (fs : AMap Key Bytes) :
    (∀ x ∈ fs, x.1.kind = .profiles → ∃ id, Good id ∧ x.1 = pkey id) →
    ∃ l, loadProfiles e fs = some l ∧ ∀ id p, Good id → ((id, p) ∈ l ↔ ∃ bs s, (pkey id, bs) ∈ fs ∧ e.parse bs = some s ∧ p = s.profile) := by
  induction fs with
  | nil => intro _; exact ⟨[], rfl, by simp⟩
  | cons x fs ih =>
    intro hx
    obtain ⟨l, hl, hm⟩ := ih fun y hy => hx y (by simp [hy])
    obtain ⟨k, bs⟩ := x
    unfold loadProfiles
    split
    · next hk =>
      obtain ⟨id0, hg0, hk0⟩ := hx (k, bs) (by simp) hk
      dsimp only at hk0
      subst hk0
      unfold loadOne
      rw [C217_name_partial e.base id0 hg0 h1 h2]
      cases hp : e.parse bs with
      | none =>
        dsimp only
        rw [hl]
        refine ⟨_, rfl, ?_⟩
        intro id p hid
        simp only [Option.toList_none, List.nil_append]
        rw [hm id p hid]
        constructor
        · rintro ⟨b, s, h, h'⟩; exact ⟨b, s, by simp [h], h'⟩
        · rintro ⟨b, s, h, h'⟩
          rcases List.mem_cons.1 h with h | h
          · injection h with _ h; rw [h, hp] at h'; cases h'.1
          · exact ⟨b, s, h, h'⟩
      | some s0 =>
        dsimp only
        rw [hl]
        refine ⟨_, rfl, ?_⟩
        intro id p hid
        simp only [Option.toList_some, List.singleton_append, List.mem_cons]
        rw [hm id p hid]
        constructor
        · rintro (h | ⟨b, s, h, h'⟩)
          · injection h with h h'; subst h h'; exact ⟨bs, s0, .inl rfl, hp, rfl⟩
          · exact ⟨b, s, .inr h, h'⟩
        · rintro ⟨b, s, h | h, h'⟩
          · injection h with h h''
            have := pkey_inj h
            subst this h''
            rw [hp] at h'
            obtain ⟨h', rfl⟩ := h'
            injection h' with h'
            subst h'
            exact .inl rfl
          · exact .inr ⟨b, s, h, h'⟩
    · next hk =>
      refine ⟨l, hl, ?_⟩
      intro id p hid
      rw [hm id p hid]
      constructor
      · rintro ⟨b, s, h, h'⟩; exact ⟨b, s, by simp [h], h'⟩
      · rintro ⟨b, s, h, h'⟩
        rcases List.mem_cons.1 h with h | h
        · injection h with h _; exact absurd (by rw [← h]; rfl) hk
        · exact ⟨b, s, h, h'⟩

theorem of_profile (p : Profile) : (Saved.of p).profile = seconds p := by
  unfold Saved.of Saved.profile seconds
  cases p with
  | mk a b c l =>
    simp only [Option.getD_some, Option.map_map, List.map_map, Profile.mk.injEq, true_and]
    refine ⟨?_, ?_, ?_⟩
    · cases b <;> rfl
    · cases c <;> rfl
    · induction l with
      | nil => rfl
      | cons x l ih => simpa using ih

/-- **C218**: after a batch was stored completely, the next start loads, for every router of it whose
router info is known, exactly the profile that was stored last, to the second, and its router info,
whatever was stored and wherever storing was interrupted before, and whatever happens to other routers
afterwards. -/
theorem C218_loaded (e : Env) (h1 : ¬ Occurs tag e.base) (h2 : ¬ Occurs ext e.base)
    (fs : FS) (hfs : Clean fs) (before later : List Op) (b : List Router)
    (hbatch : ∀ o ∈ before ++ { routers := b } :: later, Batch o) (r : Router) (hm : r ∈ b)
    (hr : e.parse (e.render (.of r.profile)) = some (.of r.profile))
    (hd : HasDirs fs r.id) (hlater : ∀ o ∈ later, ∀ r' ∈ o.routers, r'.id ≠ r.id)
    (hinfo : (run e fs before).files.get (ikey r.id) ≠ none ∨ ∃ raw, HasInfo e r raw) :
    (∃ l, loadProfiles e (run e fs (before ++ { routers := b } :: later)).files = some l ∧
      ∀ p, (r.id, p) ∈ l ↔ p = seconds r.profile) ∧
    ∀ raw, HasInfo e r raw → raw ∈ loadInfos (run e fs (before ++ { routers := b } :: later)) := by
  have hgood : Good r.id := (hbatch { routers := b } (by simp)).1 r hm
  have hclean := run_clean e _ fs hbatch hfs
  have hsplit : run e fs (before ++ { routers := b } :: later) = run e (step e (run e fs before) { routers := b }) later := by
    simp [run]
  have hb := hbatch { routers := b } (by simp)
  obtain ⟨bl, g1, g2, -, g4⟩ := save_blocks e b (run e fs before) hb.1 hb.2
  obtain ⟨gi, gp⟩ := g4 r hm (by unfold HasDirs; rw [run_dirs]; exact hd)
  have hkeep : ∀ k, (k = ikey r.id ∨ k = pkey r.id) →
      (run e fs (before ++ { routers := b } :: later)).files.get k = ((run e fs before).applyAll (flat bl)).files.get k := by
    intro k hk
    rw [hsplit, run_other e later r.id k hk _ (fun o ho => hbatch o (by simp [ho])) hlater]
    show ((run e fs before).applyAll (save e (run e fs before) b)).files.get k = _
    rw [g1]
  refine ⟨?_, ?_⟩
  · obtain ⟨l, hl, hmem⟩ := loadProfiles_mem e h1 h2 (run e fs (before ++ { routers := b } :: later)).files (by
      intro x hx hk
      exact hclean.2 x.1 x.2 (AMap.mem_get hclean.1 hx) hk)
    refine ⟨l, hl, fun p => ?_⟩
    rw [hmem r.id p hgood]
    have hget : (run e fs (before ++ { routers := b } :: later)).files.get (pkey r.id) = some (e.render (.of r.profile)) := by
      rw [hkeep _ (.inr rfl)]
      exact flat_mem bl _ _ _ g2 (gp hinfo)
    constructor
    · rintro ⟨bs, s, hbs, hps, rfl⟩
      rw [AMap.mem_get hclean.1 hbs] at hget
      injection hget with hget
      rw [hget, hr] at hps
      injection hps with hps
      rw [← hps, of_profile]
    · rintro rfl
      exact ⟨_, _, AMap.get_mem hget, hr, (of_profile _).symm⟩
  · intro raw hraw
    have hget : (run e fs (before ++ { routers := b } :: later)).files.get (ikey r.id) = some raw := by
      rw [hkeep _ (.inl rfl)]
      exact flat_mem bl _ _ _ g2 (gi raw hraw)
    unfold loadInfos
    exact List.mem_map.2 ⟨(ikey r.id, raw), List.mem_filter.2 ⟨AMap.get_mem hget, by simp [ikey]⟩, rfl⟩

/-! ## C219: being killed while storing -/

/-- **C219**, violated: if the program is killed right after it opened the file of a router info to
replace it, the old router info is lost: the file is empty. -/
theorem C219_info_violated (e : Env) (fs : FS) (r : Router) (rs : List Router) (hr : Good r.id) (hd : HasDirs fs r.id) {raw : Bytes}
    (hi : HasInfo e r raw) :
    (step e fs { routers := r :: rs, stop := some 1 }).files.get (ikey r.id) = some [] := by
  obtain ⟨gz, hg, hraw⟩ := hi
  have h1 : saveOne e fs r = .create (ikey r.id) :: (raw.map (.byte (ikey r.id)) ++
      storeProfile e (fs.applyAll (.create (ikey r.id) :: raw.map (.byte (ikey r.id)))) r.id r.profile) := by
    unfold saveOne saveInfo
    rw [hg]
    dsimp only
    rw [hraw]
    have : storeInfo fs r.id raw = .create (ikey r.id) :: raw.map (.byte (ikey r.id)) := by
      unfold storeInfo
      rw [head_good hr]
      dsimp only
      rw [infoName_eq r.id hr]
      unfold write
      rw [if_pos hd.1]
      rfl
    dsimp only
    rw [this]
    rfl
  show (fs.applyAll ((save e fs (r :: rs)).take 1)).files.get _ = _
  have : (save e fs (r :: rs)).take 1 = [.create (ikey r.id)] := by
    unfold save
    rw [h1, List.cons_append, List.take_succ_cons, List.take_zero]
  rw [this]
  simp [FS.applyAll, FS.apply]

/-- **C218**: the router info of a router is written to `netDb/r…/routerInfo-….dat` and its profile to `peerProfiles/p…/profile-….toml`, where the first gap is the first
character of its identifier and the second the identifier. -/
theorem C218_paths (e : Env) (fs : FS) (c : Char) (cs : List Char) (id : List Char) (hid : id = c :: cs) (good : Good id) (info : Bytes) (p : Profile)
    (dir : (Kind.netDb, c) ∈ fs.dirs) (pdir : (Kind.profiles, c) ∈ fs.dirs) :
    (∃ k, storeInfo fs id info = .create k :: info.map (.byte k) ∧ path e.base k = e.base ++ "/netDb/r".toList ++ [c] ++ "/routerInfo-".toList ++ id ++ ".dat".toList) ∧
    (∀ old, fs.files.get (ikey id) = some old → ∃ k, storeProfile e fs id p = .create k :: (e.render (.of p)).map (.byte k) ∧
      path e.base k = e.base ++ "/peerProfiles/p".toList ++ [c] ++ "/profile-".toList ++ id ++ ".toml".toList) := by
  have h1 : "/netDb/r".toList = '/' :: (['n', 'e', 't', 'D', 'b'] ++ ['/', 'r']) := by decide +kernel
  have h2 : "/routerInfo-".toList = '/' :: ['r', 'o', 'u', 't', 'e', 'r', 'I', 'n', 'f', 'o', '-'] := by decide +kernel
  have h3 : ".dat".toList = ['.', 'd', 'a', 't'] := by decide +kernel
  have h4 : "/peerProfiles/p".toList = '/' :: (['p', 'e', 'e', 'r', 'P', 'r', 'o', 'f', 'i', 'l', 'e', 's'] ++ ['/', 'p']) := by decide +kernel
  have h5 : "/profile-".toList = '/' :: tag := by decide +kernel
  have h6 : ".toml".toList = ext := by decide +kernel
  have hhead : id.head? = some c := by rw [hid]; rfl
  have hik : ikey id = ⟨.netDb, c, infoTag ++ id ++ dat⟩ := by unfold ikey; rw [hid]; rfl
  constructor
  · refine ⟨ikey id, ?_, ?_⟩
    · unfold storeInfo
      rw [hhead]
      dsimp only
      rw [infoName_eq id good]
      unfold write
      rw [if_pos dir]
      rw [hik]
    · rw [hik, h1, h2, h3]
      simp only [path, netDbName, infoTag, dat, List.cons_append, List.nil_append, List.append_assoc]
  · intro old hold
    refine ⟨⟨.profiles, c, tag ++ id ++ ext⟩, ?_, ?_⟩
    · unfold storeProfile
      rw [hhead]
      dsimp only
      rw [← hik, hold]
      dsimp only
      unfold write
      rw [if_pos pdir]
    · rw [h4, h5, h6]
      simp only [path, profilesName, List.cons_append, List.nil_append, List.append_assoc]

/-- **C219**, violated: if it is killed right after it opened the file of a profile, the next start has
an empty profile for the router: no successes and no failures. -/
theorem C219_profile_violated (e : Env) (h1 : ¬ Occurs tag e.base) (h2 : ¬ Occurs ext e.base) (hp : e.parse [] =
    some ⟨none, none, none, List.replicate 11 none⟩)
    (fs : FS) (hfs : Clean fs) (r : Router) (rs : List Router) (hb : Batch { routers := r :: rs }) (hd : HasDirs fs r.id)
    (hn : r.info = none) (hold : fs.files.get (ikey r.id) ≠ none) :
    ∃ l, loadProfiles e (step e fs { routers := r :: rs, stop := some 1 }).files = some l ∧
      ∀ p, (r.id, p) ∈ l ↔ p = ⟨0, none, none, List.replicate 11 0⟩ := by
  have hr : Good r.id := hb.1 r (by simp)
  have hget : (step e fs { routers := r :: rs, stop := some 1 }).files.get (pkey r.id) = some [] := by
    have h1 : saveOne e fs r = .create (pkey r.id) :: (e.render (.of r.profile)).map (.byte (pkey r.id)) := by
      unfold saveOne saveInfo
      rw [hn]
      dsimp only
      rw [List.nil_append]
      show storeProfile e fs r.id r.profile = _
      unfold storeProfile
      rw [head_good hr]
      dsimp only
      change (match fs.files.get (ikey r.id) with | none => [] | some _ => _) = _
      cases h : fs.files.get (ikey r.id) with
      | none => exact absurd h hold
      | some y =>
        dsimp only
        unfold write
        rw [if_pos (by exact hd.2)]
        rfl
    show (fs.applyAll ((save e fs (r :: rs)).take 1)).files.get _ = _
    have : (save e fs (r :: rs)).take 1 = [.create (pkey r.id)] := by
      unfold save
      rw [h1, List.cons_append, List.take_succ_cons, List.take_zero]
    rw [this]
    simp [FS.applyAll, FS.apply]
  have hclean := step_clean e fs { routers := r :: rs, stop := some 1 } hb hfs
  obtain ⟨l, hl, hmem⟩ := loadProfiles_mem e h1 h2 (step e fs { routers := r :: rs, stop := some 1 }).files (by
    intro x hx hk
    exact hclean.2 x.1 x.2 (AMap.mem_get hclean.1 hx) hk)
  refine ⟨l, hl, fun p => ?_⟩
  rw [hmem r.id p hr]
  constructor
  · rintro ⟨bs, s, hbs, hps, rfl⟩
    rw [AMap.mem_get hclean.1 hbs] at hget
    injection hget with hget
    rw [hget, hp] at hps
    injection hps with hps
    rw [← hps]
    rfl
  · rintro rfl
    exact ⟨_, _, AMap.get_mem hget, hp, rfl⟩

/-- **C219**, in part: wherever it is killed, every file is as it was before or is a beginning of what
the whole batch would have put there. -/
theorem C219_torn_partial (e : Env) (fs : FS) (rs : List Router) (hb : Batch { routers := rs }) (n : Nat) (k : Key) :
    (step e fs { routers := rs, stop := some n }).files.get k = fs.files.get k ∨
    ∃ c full, (step e fs { routers := rs, stop := some n }).files.get k = some c ∧
      (step e fs { routers := rs }).files.get k = some full ∧ c <+: full := by
  obtain ⟨bl, h1, h2, -, -⟩ := save_blocks e rs fs hb.1 hb.2
  have e1 : step e fs { routers := rs, stop := some n } = fs.applyAll ((flat bl).take n) := by
    show fs.applyAll ((save e fs rs).take n) = _
    rw [h1]
  have e2 : step e fs { routers := rs } = fs.applyAll (flat bl) := by
    show fs.applyAll (save e fs rs) = _
    rw [h1]
  rw [e1, e2]
  rcases flat_take bl fs n k h2 with h | ⟨c, full, g1, g2, g3⟩
  · exact .inl h
  · exact .inr ⟨c, full, g1, flat_mem bl k full fs h2 g2, g3⟩

/-! ## The cases occur -/

def sampleProfile : Profile := ⟨12345, some 6789, none, [1, 2, 3]⟩

/-- A text form with one byte per field. -/
def sampleEnv : Env :=
  { gunzip := some, base := "/home/u/.emissary".toList
    render := fun s => [(s.lastActivity.getD 0).toUInt8, (s.lastDeclined.getD 0).toUInt8]
    parse := fun bs => match bs with
      | [] => some ⟨none, none, none, List.replicate 11 none⟩
      | [a, b] => some ⟨some a.toNat, some b.toNat, none, [some 1, some 2, some 3]⟩
      | _ => none }

def sampleRouter : Router := ⟨"Xa-~9=".toList, some [7, 8], sampleProfile⟩

def sampleFs : FS := { dirs := [(.netDb, 'X'), (.profiles, 'X')] }

example : Good sampleRouter.id := by unfold Good; decide
example : Batch { routers := [sampleRouter] } := ⟨by intro r hr; simp at hr; subst hr; unfold Good; decide, by simp⟩
example : Clean sampleFs := ⟨AMap.ok_nil, by simp [sampleFs, AMap.get]⟩
example : loadProfiles sampleEnv (step sampleEnv sampleFs { routers := [sampleRouter] }).files =
    some [("Xa-~9=".toList, ⟨12000, some 6000, none, [1, 2, 3]⟩)] := by decide +kernel
example : loadInfos (step sampleEnv sampleFs { routers := [sampleRouter] }) = [[7, 8]] := by decide +kernel
example : loadInfos (step sampleEnv (step sampleEnv sampleFs { routers := [sampleRouter] })
    { routers := [sampleRouter], stop := some 2 }) = [[7]] := by decide +kernel
example : sampleEnv.parse (sampleEnv.render (.of sampleProfile)) = some (.of sampleProfile) := by decide +kernel
example : extract "/tmp/my.toml.d/peerProfiles/pX/profile-Xa.toml".toList = .panics := by decide
example (fs : FS) (h1 : (Kind.netDb, 'X') ∈ fs.dirs) (h2 : (Kind.profiles, 'X') ∈ fs.dirs) :=
  C218_paths sampleEnv fs 'X' "a-~9=".toList sampleRouter.id (by decide) (by unfold Good; decide) [7, 8] sampleProfile h1 h2

example : extract "/tmp/profile-1/peerProfiles/pX/profile-Xa.toml".toList =
    .name "1/peerProfiles/pX/profile-Xa".toList := by decide

end Emissary.Storage
