import Verif.Model.Boot
import Mathlib.Data.List.Nodup
/-!
# C208 to C213: starting the program again and again, and being stopped at any point
-/
namespace Emissary.Boot

/-! ## Specification -/

/-- The key in a file. -/
def Keys.get (k : Keys) : Name → Bytes
  | .static => k.static
  | .signing => k.signing
  | .ntcp2 => k.ntcp2
  | .ssu2 => k.ssu2
  | .toml => []

/-- The bytes of a key file. -/
def size : Name → Nat
  | .static => 32
  | .signing => 32
  | .ntcp2 => 48
  | .ssu2 => 64
  | .toml => 0

/-- Freshly made keys have the right sizes. -/
def Fresh (e : Env C) : Prop := ∀ n, (e.keys.get n).length = size n

/-- The disk has these keys. -/
def Has (k : Keys) (d : Disk) : Prop :=
  d.base = true ∧ ∀ n, n ≠ .toml → ∃ bs, d.file n = some bs ∧ size n ≤ bs.length ∧ bs.take (size n) = k.get n

/-! ## Changes of the disk -/

/-- The change is to the file. -/
def hits (n : Name) : Eff → Bool
  | .create m => m = n
  | .byte m _ => m = n
  | _ => false

theorem applyAll_append (d : Disk) (a b : List Eff) : d.applyAll (a ++ b) = (d.applyAll a).applyAll b := by
  simp [Disk.applyAll]

theorem apply_file (d : Disk) (e : Eff) (n : Name) (h : hits n e = false) : (d.apply e).file n = d.file n := by
  cases e with
  | create m => simp only [Disk.apply]; rw [if_neg]; rintro rfl; simp [hits] at h
  | byte m b => simp only [Disk.apply]; rw [if_neg]; rintro rfl; simp [hits] at h
  | _ => rfl

theorem applyAll_file (es : List Eff) (n : Name) : ∀ d : Disk, (∀ e ∈ es, hits n e = false) →
    (d.applyAll es).file n = d.file n := by
  induction es with
  | nil => intro d _; rfl
  | cons e es ih =>
    intro d h
    exact (ih (d.apply e) fun x hx => h x (List.mem_cons_of_mem _ hx)).trans (apply_file d e n (h e (by simp)))

theorem applyAll_base (es : List Eff) : ∀ d : Disk, d.base = true → (d.applyAll es).base = true := by
  induction es with
  | nil => intro d h; exact h
  | cons e es ih => intro d h; exact ih (d.apply e) (by cases e <;> simp [Disk.apply, h])

theorem applyAll_cons (d : Disk) (e : Eff) (es : List Eff) : d.applyAll (e :: es) = (d.apply e).applyAll es := rfl

theorem base_cons (d : Disk) (es : List Eff) : (d.applyAll (.mkBase :: es)).base = true := by
  rw [applyAll_cons]
  exact applyAll_base es _ rfl

theorem bytes_file (n : Name) (bs : Bytes) : ∀ (d : Disk) (old : Bytes), d.file n = some old →
    (d.applyAll (bs.map (.byte n))).file n = some (old ++ bs) := by
  induction bs with
  | nil => intro d old h; simpa [Disk.applyAll] using h
  | cons b bs ih =>
    intro d old h
    have := ih (d.apply (.byte n b)) (old ++ [b]) (by simp [Disk.apply, h])
    simpa [Disk.applyAll] using this

theorem save_file (d : Disk) (n : Name) (bs : Bytes) : (d.applyAll (save n bs)).file n = some bs := by
  have := bytes_file n bs (d.apply (.create n)) [] (by simp [Disk.apply])
  simpa [Disk.applyAll, save] using this

theorem save_hits (n m : Name) (bs : Bytes) (h : m ≠ n) : ∀ e ∈ save m bs, hits n e = false := by
  intro e he
  simp only [save, List.mem_cons, List.mem_map] at he
  rcases he with rfl | ⟨b, -, rfl⟩ <;> simpa [hits] using h

theorem netDb_hits (n : Name) : ∀ e ∈ mkNetDb, hits n e = false := by
  intro e he
  simp only [mkNetDb, List.mem_cons, List.mem_map] at he
  rcases he with rfl | ⟨b, -, rfl⟩ <;> rfl

theorem profiles_hits (n : Name) : ∀ e ∈ mkProfiles, hits n e = false := by
  intro e he
  simp only [mkProfiles, List.mem_cons, List.mem_map] at he
  rcases he with rfl | ⟨b, -, rfl⟩ <;> rfl

theorem append_hits {n : Name} {a b : List Eff} (ha : ∀ e ∈ a, hits n e = false) (hb : ∀ e ∈ b, hits n e = false) :
    ∀ e ∈ a ++ b, hits n e = false := by
  intro e he
  rcases List.mem_append.1 he with h | h
  · exact ha e h
  · exact hb e h

theorem dirs_hits (d : Disk) (n : Name) : ∀ e ∈ (if d.netDb = none then mkNetDb else []) ++
    (if d.profiles = none then mkProfiles else []), hits n e = false := by
  refine append_hits ?_ ?_
  · split
    · exact netDb_hits n
    · simp
  · split
    · exact profiles_hits n
    · simp

theorem key_hits (d : Disk) (m n : Name) (len : Nat) (f : Bytes) (h : m ≠ n) :
    ∀ e ∈ (key d m len f).1, hits n e = false := by
  unfold key
  split
  · simp
  · exact save_hits n m f h

theorem key_nil {d : Disk} {n : Name} {len : Nat} {k bs : Bytes} (f : Bytes) (h : d.file n = some bs) (hl : len ≤ bs.length)
    (hk : bs.take len = k) : key d n len f = ([], k) := by
  unfold key load
  rw [h]
  dsimp only
  rw [if_pos hl]
  dsimp only
  rw [hk]

/-- After a key was read or made it is in its file. -/
theorem key_file (d : Disk) (n : Name) (len : Nat) (f : Bytes) (hf : f.length = len) (pre post : List Eff)
    (hpre : ∀ e ∈ pre, hits n e = false) (hpost : ∀ e ∈ post, hits n e = false) :
    ∃ bs, (d.applyAll (pre ++ (key d n len f).1 ++ post)).file n = some bs ∧ len ≤ bs.length ∧
      bs.take len = (key d n len f).2 := by
  rw [applyAll_append, applyAll_file _ _ _ hpost, applyAll_append]
  unfold key
  cases hl : load d n len with
  | some k =>
    unfold load at hl
    split at hl
    · cases hl
    next bs hb =>
    split at hl
    · next hlen =>
      injection hl with hl
      exact ⟨bs, by rw [← hb]; exact applyAll_file pre n d hpre, hlen, hl⟩
    · cases hl
  | none => exact ⟨f, save_file _ _ _, by omega, by rw [← hf, List.take_length]⟩

/-- The changes of a start after the first: directories, keys, configuration. -/
theorem boot_later (e : Env C) (d : Disk) (hb : d.base = true) : ∃ ts : List Eff,
    (∀ n, n ≠ .toml → ∀ x ∈ ts, hits n x = false) ∧
    (boot e d).1 = ((if d.netDb = none then mkNetDb else []) ++ (if d.profiles = none then mkProfiles else [])) ++
      (key d .static 32 e.keys.static).1 ++ (key d .signing 32 e.keys.signing).1 ++
      (key d .ntcp2 48 e.keys.ntcp2).1 ++ (key d .ssu2 64 e.keys.ssu2).1 ++ ts ∧
    ∀ k c, (boot e d).2 = some (k, c) → k = ⟨(key d .static 32 e.keys.static).2, (key d .signing 32 e.keys.signing).2,
      (key d .ntcp2 48 e.keys.ntcp2).2, (key d .ssu2 64 e.keys.ssu2).2⟩ := by
  unfold boot
  rw [if_neg (by simp [hb])]
  dsimp only
  split
  · exact ⟨[], by simp, by simp, by simp⟩
  · refine ⟨save .toml e.image, fun n hn => save_hits n _ _ (Ne.symm hn), rfl, ?_⟩
    intro k c h
    dsimp only at h
    split at h
    · injection h with h; injection h with h; exact h.symm
    · cases h
  · refine ⟨[], by simp, by simp, ?_⟩
    intro k c h
    dsimp only at h
    split at h
    · injection h with h; injection h with h; exact h.symm
    · cases h

/-! ## C208: the identity of the router -/

/-- A start that ends leaves its keys on the disk. -/
theorem boot_has (e : Env C) (he : Fresh e) (d : Disk) {k : Keys} {c : C} (h : (boot e d).2 = some (k, c)) :
    Has k (d.applyAll (boot e d).1) := by
  by_cases hb : d.base = true
  · obtain ⟨ts, h1, h2, h3⟩ := boot_later e d hb
    refine ⟨applyAll_base _ _ hb, ?_⟩
    rw [h2, h3 k c h]
    have hd := fun n => dirs_hits d n
    generalize (if d.netDb = none then mkNetDb else []) ++ (if d.profiles = none then mkProfiles else []) = dirs at hd
    intro n hn
    have kh := fun m len f (h : m ≠ n) => key_hits d m n len f h
    cases n with
    | toml => exact absurd rfl hn
    | static =>
      have := key_file d .static 32 e.keys.static (he .static) dirs
        ((key d .signing 32 e.keys.signing).1 ++ ((key d .ntcp2 48 e.keys.ntcp2).1 ++ ((key d .ssu2 64 e.keys.ssu2).1 ++ ts)))
        (hd _) (append_hits (kh _ _ _ (by decide)) (append_hits (kh _ _ _ (by decide)) (append_hits (kh _ _ _ (by decide)) (h1 _ hn))))
      simpa only [List.append_assoc, size, Keys.get] using this
    | signing =>
      have := key_file d .signing 32 e.keys.signing (he .signing) (dirs ++ (key d .static 32 e.keys.static).1)
        ((key d .ntcp2 48 e.keys.ntcp2).1 ++ ((key d .ssu2 64 e.keys.ssu2).1 ++ ts))
        (append_hits (hd _) (kh _ _ _ (by decide))) (append_hits (kh _ _ _ (by decide)) (append_hits (kh _ _ _ (by decide)) (h1 _ hn)))
      simpa only [List.append_assoc, size, Keys.get] using this
    | ntcp2 =>
      have := key_file d .ntcp2 48 e.keys.ntcp2 (he .ntcp2)
        (dirs ++ ((key d .static 32 e.keys.static).1 ++ (key d .signing 32 e.keys.signing).1))
        ((key d .ssu2 64 e.keys.ssu2).1 ++ ts)
        (append_hits (hd _) (append_hits (kh _ _ _ (by decide)) (kh _ _ _ (by decide))))
        (append_hits (kh _ _ _ (by decide)) (h1 _ hn))
      simpa only [List.append_assoc, size, Keys.get] using this
    | ssu2 =>
      have := key_file d .ssu2 64 e.keys.ssu2 (he .ssu2)
        (dirs ++ ((key d .static 32 e.keys.static).1 ++ ((key d .signing 32 e.keys.signing).1 ++ (key d .ntcp2 48 e.keys.ntcp2).1)))
        ts (append_hits (hd _) (append_hits (kh _ _ _ (by decide)) (append_hits (kh _ _ _ (by decide)) (kh _ _ _ (by decide)))))
        (h1 _ hn)
      simpa only [List.append_assoc, size, Keys.get] using this
  · have hb' : d.base = false := by simpa using hb
    unfold boot at h ⊢
    rw [if_pos hb'] at h ⊢
    injection h with h
    injection h with h _
    subst h
    refine ⟨?_, ?_⟩
    · simp only [List.cons_append]
      exact base_cons d _
    · intro n hn
      have sh := fun m (bs : Bytes) (h : m ≠ n) => save_hits n m bs h
      have fin : ∀ (pre post : List Eff) (bs : Bytes), bs = e.keys.get n → (∀ x ∈ post, hits n x = false) →
          ∃ bs', (d.applyAll (pre ++ save n bs ++ post)).file n = some bs' ∧ size n ≤ bs'.length ∧
            bs'.take (size n) = e.keys.get n := by
        intro pre post bs hbs hp
        rw [applyAll_append, applyAll_file _ _ _ hp, applyAll_append, save_file]
        have := he n
        exact ⟨bs, rfl, by rw [hbs]; omega, by rw [hbs, ← this, List.take_length]⟩
      cases n with
      | toml => exact absurd rfl hn
      | static =>
        have := fin (.mkBase :: mkNetDb ++ mkProfiles) (save .signing e.keys.signing ++ (save .ntcp2 e.keys.ntcp2 ++
          (save .ssu2 e.keys.ssu2 ++ save .toml e.image))) e.keys.static rfl (append_hits (sh _ _ (by decide))
            (append_hits (sh _ _ (by decide)) (append_hits (sh _ _ (by decide)) (sh _ _ (by decide)))))
        simpa only [List.append_assoc, List.cons_append, size, Keys.get] using this
      | signing =>
        have := fin (.mkBase :: mkNetDb ++ mkProfiles ++ save .static e.keys.static) (save .ntcp2 e.keys.ntcp2 ++
          (save .ssu2 e.keys.ssu2 ++ save .toml e.image)) e.keys.signing rfl (append_hits (sh _ _ (by decide))
            (append_hits (sh _ _ (by decide)) (sh _ _ (by decide))))
        simpa only [List.append_assoc, List.cons_append, size, Keys.get] using this
      | ntcp2 =>
        have := fin (.mkBase :: mkNetDb ++ mkProfiles ++ save .static e.keys.static ++ save .signing e.keys.signing)
          (save .ssu2 e.keys.ssu2 ++ save .toml e.image) e.keys.ntcp2 rfl (append_hits (sh _ _ (by decide)) (sh _ _ (by decide)))
        simpa only [List.append_assoc, List.cons_append, size, Keys.get] using this
      | ssu2 =>
        have := fin (.mkBase :: mkNetDb ++ mkProfiles ++ save .static e.keys.static ++ save .signing e.keys.signing ++
          save .ntcp2 e.keys.ntcp2) (save .toml e.image) e.keys.ssu2 rfl (sh _ _ (by decide))
        simpa only [List.append_assoc, List.cons_append, size, Keys.get] using this

/-- If the disk has a key, a start does not change its file and returns the key. -/
theorem boot_keeps (e : Env C) (d : Disk) (hb : d.base = true) (n : Name) (hn : n ≠ .toml) {bs : Bytes}
    (hf : d.file n = some bs) (hl : size n ≤ bs.length) :
    (∀ x ∈ (boot e d).1, hits n x = false) ∧ ∀ k c, (boot e d).2 = some (k, c) → k.get n = bs.take (size n) := by
  obtain ⟨ts, h1, h2, h3⟩ := boot_later e d hb
  have kh := fun m len f (h : m ≠ n) => key_hits d m n len f h
  have kn := fun f => key_nil (k := bs.take (size n)) f hf hl rfl
  refine ⟨?_, ?_⟩
  · rw [h2]
    refine append_hits (append_hits (append_hits (append_hits (append_hits (dirs_hits d n) ?_) ?_) ?_) ?_) (h1 n hn)
    all_goals
      cases n with
      | toml => exact absurd rfl hn
      | _ =>
        first
        | exact kh _ _ _ (by decide)
        | (have := kn; simp only [size] at this; rw [this]; simp)
  · intro k c h
    rw [h3 k c h]
    cases n with
    | toml => exact absurd rfl hn
    | _ => simp only [Keys.get, size] at kn ⊢; rw [kn]

theorem step_has (o : Op C) {d : Disk} {k : Keys} (h : Has k d) :
    Has k (step d o).1 ∧ ∀ k' c, (step d o).2 = some (k', c) → k' = k := by
  obtain ⟨hb, hf⟩ := h
  have hit : ∀ n, n ≠ .toml → ∀ x ∈ (boot o.env d).1, hits n x = false := by
    intro n hn
    obtain ⟨bs, h1, h2, -⟩ := hf n hn
    exact (boot_keeps o.env d hb n hn h1 h2).1
  unfold step
  split
  · refine ⟨⟨applyAll_base _ _ hb, fun n hn => ?_⟩, ?_⟩
    · rw [applyAll_file _ _ _ (hit n hn)]; exact hf n hn
    · intro k' c h
      have key : ∀ n, n ≠ .toml → k'.get n = k.get n := by
        intro n hn
        obtain ⟨bs, h1, h2, h3⟩ := hf n hn
        rw [(boot_keeps o.env d hb n hn h1 h2).2 k' c h, h3]
      have a := key .static (by decide)
      have b := key .signing (by decide)
      have c := key .ntcp2 (by decide)
      have e := key .ssu2 (by decide)
      cases k; cases k'
      simp only [Keys.get] at a b c e
      subst a b c e
      rfl
  · refine ⟨⟨applyAll_base _ _ hb, fun n hn => ?_⟩, by simp⟩
    rw [applyAll_file _ _ _ fun x hx => hit n hn x (List.mem_of_mem_take hx)]
    exact hf n hn

theorem run_has (os : List (Op C)) : ∀ {d : Disk} {k : Keys}, Has k d → Has k (runDisk d os) := by
  induction os with
  | nil => intro d k h; exact h
  | cons o os ih => intro d k h; exact ih (step_has o h).1

/-- **C208**: once a start has ended well, every later start that ends well has the same keys, whatever
was on the disk before, whatever new keys were drawn, and wherever the starts between them were
stopped. -/
theorem C208_identity (d : Disk) (o : Op C) (ho : Fresh o.env) {k : Keys} {c : C} (h : (step d o).2 = some (k, c))
    (os : List (Op C)) (o' : Op C) {k' : Keys} {c' : C}
    (h' : (step (runDisk (step d o).1 os) o').2 = some (k', c')) : k' = k := by
  have hs : Has k (step d o).1 := by
    unfold step at h ⊢
    split at h
    · exact boot_has o.env ho d h
    · cases h
  exact (step_has o' (run_has os hs)).2 k' c' h'

/-! ## C209: damaged key files -/

/-- **C209**, violated: a key file that is shorter than its key is taken for a missing one: the start
ends well with a new key, and the file is overwritten. -/
theorem C209_short_violated (e : Env C) (he : Fresh e) (d : Disk) (hb : d.base = true) (n : Name) (hn : n ≠ .toml)
    {bs : Bytes} (hf : d.file n = some bs) (hs : bs.length < size n) {k : Keys} {c : C}
    (h : (boot e d).2 = some (k, c)) :
    k.get n = e.keys.get n ∧ ∃ new, (d.applyAll (boot e d).1).file n = some new ∧ new.take (size n) = e.keys.get n := by
  obtain ⟨ts, h1, h2, h3⟩ := boot_later e d hb
  have hk : k.get n = e.keys.get n := by
    have hl : load d n (size n) = none := by
      unfold load; rw [hf]; dsimp only; rw [if_neg (by omega)]
    rw [h3 k c h]
    cases n with
    | toml => exact absurd rfl hn
    | _ => simp only [size] at hl; simp only [Keys.get, key, hl]
  refine ⟨hk, ?_⟩
  obtain ⟨-, hall⟩ := boot_has e he d h
  obtain ⟨new, a, -, b⟩ := hall n hn
  exact ⟨new, a, by rw [b, hk]⟩

/-- **C209**, in part: a key file that is long enough is never changed, and its beginning is the key. -/
theorem C209_kept_partial (os : List (Op C)) (o : Op C) (d : Disk) (hb : d.base = true) (n : Name) (hn : n ≠ .toml)
    {bs : Bytes} (hf : d.file n = some bs) (hl : size n ≤ bs.length) :
    (runDisk d os).file n = some bs ∧
    ∀ k c, (step (runDisk d os) o).2 = some (k, c) → k.get n = bs.take (size n) := by
  have key : (runDisk d os).base = true ∧ (runDisk d os).file n = some bs := by
    induction os generalizing d with
    | nil => exact ⟨hb, hf⟩
    | cons o os ih =>
      have hk := (boot_keeps o.env d hb n hn hf hl).1
      have : (step d o).1.base = true ∧ (step d o).1.file n = some bs := by
        unfold step
        split
        · exact ⟨applyAll_base _ _ hb, by rw [applyAll_file _ _ _ hk]; exact hf⟩
        · exact ⟨applyAll_base _ _ hb, by
            rw [applyAll_file _ _ _ fun x hx => hk x (List.mem_of_mem_take hx)]; exact hf⟩
      exact ih _ this.1 this.2
  refine ⟨key.2, ?_⟩
  intro k c h
  unfold step at h
  split at h
  · exact (boot_keeps o.env _ key.1 n hn key.2 hl).2 k c h
  · cases h

/-! ## C210: the directories of the network database -/

/-- Routers whose identifier begins with `c` can be stored. -/
def CanStore (d : Disk) (c : Char) : Prop := ∃ l, d.netDb = some l ∧ c ∈ l

/-- The change is to the directories of the network database. -/
def touchesDb : Eff → Bool
  | .mkNetDb => true
  | .mkNetDbSub _ => true
  | _ => false

theorem applyAll_db (es : List Eff) : ∀ d : Disk, (∀ e ∈ es, touchesDb e = false) → (d.applyAll es).netDb = d.netDb := by
  induction es with
  | nil => intro d _; rfl
  | cons e es ih =>
    intro d h
    refine (ih (d.apply e) fun x hx => h x (List.mem_cons_of_mem _ hx)).trans ?_
    have := h e (by simp)
    cases e <;> simp_all [Disk.apply, touchesDb]

theorem save_db (n : Name) (bs : Bytes) : ∀ e ∈ save n bs, touchesDb e = false := by
  intro e he
  simp only [save, List.mem_cons, List.mem_map] at he
  rcases he with rfl | ⟨b, -, rfl⟩ <;> rfl

theorem key_db (d : Disk) (n : Name) (len : Nat) (f : Bytes) : ∀ e ∈ (key d n len f).1, touchesDb e = false := by
  unfold key
  split
  · simp
  · exact save_db n f

theorem profiles_db : ∀ e ∈ mkProfiles, touchesDb e = false := by
  intro e he
  simp only [mkProfiles, List.mem_cons, List.mem_map] at he
  rcases he with rfl | ⟨b, -, rfl⟩ <;> rfl

theorem boot_db (e : Env C) (d : Disk) (hb : d.base = true) (hd : d.netDb ≠ none) :
    ∀ x ∈ (boot e d).1, touchesDb x = false := by
  unfold boot
  rw [if_neg (by simp [hb]), if_neg hd]
  dsimp only
  have hp : ∀ x ∈ (if d.profiles = none then mkProfiles else []), touchesDb x = false := by
    split
    · exact profiles_db
    · simp
  have hk := fun n len f => key_db d n len f
  intro x hx
  split at hx
  all_goals
    simp only [List.nil_append, List.mem_append] at hx
    first
    | (rcases hx with (((hx | hx) | hx) | hx) | hx
       · exact hp x hx
       all_goals exact hk _ _ _ x hx)
    | (rcases hx with ((((hx | hx) | hx) | hx) | hx) | hx
       · exact hp x hx
       · exact hk _ _ _ x hx
       · exact hk _ _ _ x hx
       · exact hk _ _ _ x hx
       · exact hk _ _ _ x hx
       · exact save_db _ _ x hx)

theorem step_db (o : Op C) {d : Disk} {l : List Char} (hb : d.base = true) (hd : d.netDb = some l) :
    (step d o).1.base = true ∧ (step d o).1.netDb = some l := by
  have h := boot_db o.env d hb (by simp [hd])
  unfold step
  split
  · exact ⟨applyAll_base _ _ hb, by rw [applyAll_db _ _ h]; exact hd⟩
  · exact ⟨applyAll_base _ _ hb, by rw [applyAll_db _ _ fun x hx => h x (List.mem_of_mem_take hx)]; exact hd⟩

theorem run_db (os : List (Op C)) : ∀ {d : Disk} {l : List Char}, d.base = true → d.netDb = some l →
    (runDisk d os).netDb = some l := by
  induction os with
  | nil => intro d l _ h; exact h
  | cons o os ih => intro d l hb hd; exact ih (step_db o hb hd).1 (step_db o hb hd).2

theorem subs_db (cs : List Char) : ∀ (d : Disk) (l : List Char), d.netDb = some l →
    (d.applyAll (cs.map .mkNetDbSub)).netDb = some (cs.reverse ++ l) := by
  induction cs with
  | nil => intro d l h; simpa [Disk.applyAll] using h
  | cons c cs ih =>
    intro d l h
    have := ih (d.apply (.mkNetDbSub c)) (c :: l) (by simp [Disk.apply, h])
    simpa [Disk.applyAll] using this

/-- **C210**, violated: if the first start is stopped while it makes the directories of the network
database, the missing ones are never made: no router of theirs can ever be stored, however often the
program is started. -/
theorem C210_stopped_violated (e : Env C) (j : Nat) (hj : j < subdirs.length) (os : List (Op C)) (c : Char)
    (hc : c ∈ subdirs.drop j) :
    ¬ CanStore (runDisk (step {} { env := e, stop := some (2 + j) }).1 os) c := by
  have e1 : (boot e {}).1.take (2 + j) = [.mkBase, .mkNetDb] ++ (subdirs.take j).map .mkNetDbSub := by
    unfold boot
    rw [if_pos rfl]
    simp only [mkNetDb, List.cons_append, List.append_assoc]
    rw [show 2 + j = j + 1 + 1 by omega, List.take_succ_cons, List.take_succ_cons,
      List.take_append_of_le_length (by simp; omega), ← List.map_take]
    rfl
  have e2 : (step {} { env := e, stop := some (2 + j) }).1 =
      Disk.applyAll {} ([.mkBase, .mkNetDb] ++ (subdirs.take j).map .mkNetDbSub) := by
    show Disk.applyAll {} ((boot e {}).1.take (2 + j)) = _
    rw [e1]
  have e3 : (step {} { env := e, stop := some (2 + j) }).1.netDb = some ((subdirs.take j).reverse ++ []) := by
    rw [e2, applyAll_append]
    exact subs_db _ _ [] rfl
  have e4 : (step {} { env := e, stop := some (2 + j) }).1.base = true := by
    rw [e2, applyAll_append]
    exact applyAll_base _ _ rfl
  rintro ⟨l, hl, hm⟩
  rw [run_db os e4 e3] at hl
  injection hl with hl
  subst hl
  simp only [List.append_nil, List.mem_reverse] at hm
  have hnd : subdirs.Nodup := by decide
  rw [← List.take_append_drop j subdirs, List.nodup_append] at hnd
  exact hnd.2.2 c hm c hc rfl

theorem db_append (d : Disk) (a b : List Eff) (hb : ∀ e ∈ b, touchesDb e = false) :
    (d.applyAll (a ++ b)).netDb = (d.applyAll a).netDb := by
  rw [applyAll_append, applyAll_db _ _ hb]

theorem mkNetDb_db (d : Disk) (h : d.netDb = none) : (d.applyAll mkNetDb).netDb = some (subdirs.reverse ++ []) := by
  unfold mkNetDb
  rw [applyAll_cons]
  exact subs_db subdirs _ [] (by simp [Disk.apply, h])

/-- **C210**, in part: a start that is not stopped makes all directories if there was no `netDb`, and
they stay. -/
theorem C210_made_partial (e : Env C) (d : Disk) (hd : d.netDb = none) (os : List (Op C)) :
    ∀ c ∈ subdirs, CanStore (runDisk (step d { env := e }).1 os) c := by
  have hrest : ∃ rest, (∀ x ∈ rest, touchesDb x = false) ∧
      ((boot e d).1 = .mkBase :: (mkNetDb ++ rest) ∨ (d.base = true ∧ (boot e d).1 = mkNetDb ++ rest)) := by
    have app : ∀ {a b : List Eff}, (∀ x ∈ a, touchesDb x = false) → (∀ x ∈ b, touchesDb x = false) →
        ∀ x ∈ a ++ b, touchesDb x = false := by
      intro a b ha hb x hx
      rcases List.mem_append.1 hx with h | h
      · exact ha x h
      · exact hb x h
    by_cases hb : d.base = false
    · refine ⟨mkProfiles ++ (save .static e.keys.static ++ (save .signing e.keys.signing ++
        (save .ntcp2 e.keys.ntcp2 ++ (save .ssu2 e.keys.ssu2 ++ save .toml e.image)))), ?_, .inl ?_⟩
      · exact app profiles_db (app (save_db _ _) (app (save_db _ _) (app (save_db _ _) (app (save_db _ _) (save_db _ _)))))
      · unfold boot
        rw [if_pos hb]
        simp
    · have hp : ∀ x ∈ (if d.profiles = none then mkProfiles else []), touchesDb x = false := by
        split
        · exact profiles_db
        · simp
      have hk := fun n len f => key_db d n len f
      unfold boot
      rw [if_neg hb, if_pos hd]
      dsimp only
      split
      · exact ⟨_, app hp (app (hk _ _ _) (app (hk _ _ _) (app (hk _ _ _) (hk _ _ _)))),
          .inr ⟨by simpa using hb, by simp only [List.append_assoc]; rfl⟩⟩
      · exact ⟨_, app hp (app (hk _ _ _) (app (hk _ _ _) (app (hk _ _ _) (app (hk _ _ _) (save_db .toml e.image))))),
          .inr ⟨by simpa using hb, by simp only [List.append_assoc]; rfl⟩⟩
      · exact ⟨_, app hp (app (hk _ _ _) (app (hk _ _ _) (app (hk _ _ _) (hk _ _ _)))),
          .inr ⟨by simpa using hb, by simp only [List.append_assoc]; rfl⟩⟩
  obtain ⟨rest, hr, hform⟩ := hrest
  have hdb : (step d { env := e }).1.base = true ∧ (step d { env := e }).1.netDb = some (subdirs.reverse ++ []) := by
    show (d.applyAll (boot e d).1).base = true ∧ (d.applyAll (boot e d).1).netDb = _
    rcases hform with h | ⟨hb, h⟩
    · rw [h]
      refine ⟨base_cons d _, ?_⟩
      rw [applyAll_cons, db_append _ _ _ hr]
      exact mkNetDb_db _ hd
    · rw [h]
      refine ⟨applyAll_base _ _ hb, ?_⟩
      rw [db_append _ _ _ hr]
      exact mkNetDb_db _ hd
  intro c hc
  exact ⟨_, run_db os hdb.1 hdb.2, by simpa using hc⟩

/-- The profile of a router whose identifier begins with `c` can be stored. -/
def CanStoreProfile (d : Disk) (c : Char) : Prop := ∃ l, d.profiles = some l ∧ c ∈ l

theorem profile_apply (x : Eff) {d : Disk} {c : Char} (h : CanStoreProfile d c) : CanStoreProfile (d.apply x) c := by
  obtain ⟨l, h1, h2⟩ := h
  cases x <;> simp only [CanStoreProfile, Disk.apply, h1, Option.getD_some, Option.map_some] <;>
    first
    | exact ⟨l, rfl, h2⟩
    | exact ⟨_, rfl, List.mem_cons_of_mem _ h2⟩

theorem profile_applyAll (es : List Eff) : ∀ {d : Disk} {c : Char}, CanStoreProfile d c → CanStoreProfile (d.applyAll es) c := by
  induction es with
  | nil => intro d c h; exact h
  | cons x es ih => intro d c h; exact ih (profile_apply x h)

theorem profile_run (os : List (Op C)) : ∀ {d : Disk} {c : Char}, CanStoreProfile d c → CanStoreProfile (runDisk d os) c := by
  induction os with
  | nil => intro d c h; exact h
  | cons o os ih =>
    intro d c h
    refine ih (d := (step d o).1) ?_
    unfold step
    split <;> exact profile_applyAll _ h

theorem profile_made (cs : List Char) : ∀ (d : Disk), d.profiles ≠ none → ∀ c ∈ cs, CanStoreProfile (d.applyAll (cs.map .mkProfilesSub)) c := by
  induction cs with
  | nil => intro d _ c hc; cases hc
  | cons x cs ih =>
    intro d hd c hc
    obtain ⟨l, hl⟩ := Option.ne_none_iff_exists'.mp hd
    have e : (d.apply (.mkProfilesSub x)).profiles = some (x :: l) := by simp [Disk.apply, hl]
    rcases List.mem_cons.mp hc with rfl | hc
    · exact profile_applyAll (cs.map .mkProfilesSub) ⟨_, e, by simp⟩
    · exact ih _ (by rw [e]; simp) c hc

/-- **C210**, in part: the same for the directories of the profiles. -/
theorem C210_profiles_partial (e : Env C) (d : Disk) (hd : d.profiles = none) (os : List (Op C)) :
    ∀ c ∈ subdirs, CanStoreProfile (runDisk (step d { env := e }).1 os) c := by
  intro c hc
  refine profile_run os ?_
  show CanStoreProfile (d.applyAll (boot e d).1) c
  have hform : ∃ pre post, (boot e d).1 = pre ++ (mkProfiles ++ post) := by
    unfold boot
    split
    · exact ⟨.mkBase :: mkNetDb, _, by simp only [List.append_assoc, List.cons_append]; rfl⟩
    · dsimp only
      split <;> exact ⟨if d.netDb = none then mkNetDb else [], _, by simp only [List.append_assoc]; rfl⟩
  obtain ⟨pre, post, h⟩ := hform
  rw [h, applyAll_append, applyAll_append]
  refine profile_applyAll post ?_
  unfold mkProfiles
  rw [applyAll_cons]
  exact profile_made subdirs _ (by simp [Disk.apply]) c hc

/-! ## C211: the configuration of the user -/

/-- The text is a configuration, or is no configuration and is not to be overwritten. -/
def Respected (e : Env C) (bs : Bytes) : Prop :=
  (∃ c, e.parse bs = .valid c) ∨ (e.parse bs = .invalid ∧ e.overwrite = false)

theorem boot_toml (e : Env C) (d : Disk) (hb : d.base = true) {bs : Bytes} (hf : d.file .toml = some bs)
    (hr : Respected e bs) : ∀ x ∈ (boot e d).1, hits .toml x = false := by
  have ht : tomlOf e d ≠ .ok none := by
    unfold tomlOf
    rw [hf]
    dsimp only
    rcases hr with ⟨c, h⟩ | ⟨h, h'⟩
    · rw [h]; simp
    · rw [h]; simp [h']
  have kh := fun m len f (h : m ≠ Name.toml) => key_hits d m .toml len f h
  have base := append_hits (append_hits (append_hits (append_hits (dirs_hits d .toml)
    (kh .static 32 e.keys.static (by decide))) (kh .signing 32 e.keys.signing (by decide)))
    (kh .ntcp2 48 e.keys.ntcp2 (by decide))) (kh .ssu2 64 e.keys.ssu2 (by decide))
  unfold boot
  rw [if_neg (by simp [hb])]
  dsimp only
  split
  · exact base
  · next h => exact absurd h ht
  · exact base

/-- The characters of I2P's base64. -/
def IsBase64 (c : Char) : Prop := ('A' ≤ c ∧ c ≤ 'Z') ∨ ('a' ≤ c ∧ c ≤ 'z') ∨ ('0' ≤ c ∧ c ≤ '9') ∨ c = '-' ∨ c = '~'

instance (c : Char) : Decidable (IsBase64 c) := by unfold IsBase64; infer_instance

/-- **C210**, in part: whatever the first character of an identifier is, there are directories for the router info and the profile. -/
theorem C210_alphabet_partial (e : Env C) (d : Disk) (os : List (Op C)) (c : Char) (hc : IsBase64 c) :
    (d.netDb = none → CanStore (runDisk (step d { env := e }).1 os) c) ∧ (d.profiles = none → CanStoreProfile (runDisk (step d { env := e }).1 os) c) := by
  have hm : c ∈ subdirs := by
    have small : ∀ n < 128, IsBase64 (Char.ofNat n) → Char.ofNat n ∈ subdirs := by decide +kernel
    have hlt : c.toNat < 128 := by
      rcases hc with ⟨_, h⟩ | ⟨_, h⟩ | ⟨_, h⟩ | h | h
      · have h : c.toNat ≤ 90 := h; omega
      · have h : c.toNat ≤ 122 := h; omega
      · have h : c.toNat ≤ 57 := h; omega
      · subst h; decide
      · subst h; decide
    have := small c.toNat hlt
    rw [Char.ofNat_toNat] at this
    exact this hc
  exact ⟨fun h => C210_made_partial e d h os c hm, fun h => C210_profiles_partial e d h os c hm⟩

example : IsBase64 '~' ∧ IsBase64 'q' ∧ ¬IsBase64 '+' := by decide

/-- **C211**, in part: a configuration file with a configuration in it, or with other text if
overwriting is not asked for, is never changed. -/
theorem C211_kept_partial (os : List (Op C)) : ∀ (d : Disk), d.base = true → ∀ {bs : Bytes},
    d.file .toml = some bs → (∀ o ∈ os, Respected o.env bs) → (runDisk d os).file .toml = some bs := by
  induction os with
  | nil => intro d _ bs h _; exact h
  | cons o os ih =>
    intro d hb bs hf hr
    have h := boot_toml o.env d hb hf (hr o (by simp))
    have : (step d o).1.base = true ∧ (step d o).1.file .toml = some bs := by
      unfold step
      split
      · exact ⟨applyAll_base _ _ hb, by rw [applyAll_file _ _ _ h]; exact hf⟩
      · exact ⟨applyAll_base _ _ hb, by rw [applyAll_file _ _ _ fun x hx => h x (List.mem_of_mem_take hx)]; exact hf⟩
    exact ih _ this.1 this.2 fun x hx => hr x (List.mem_cons_of_mem _ hx)

/-- **C211**, violated: a configuration file that cannot be read as text is replaced by the default
configuration, without `--overwrite-config`. -/
theorem C211_unreadable_violated (e : Env C) (d : Disk) (hb : d.base = true) {bs : Bytes}
    (hf : d.file .toml = some bs) (hu : e.parse bs = .unreadable) :
    (step d { env := e }).1.file .toml = some e.image := by
  have ht : tomlOf e d = .ok none := by
    unfold tomlOf; rw [hf]; dsimp only; rw [hu]
  show (d.applyAll (boot e d).1).file .toml = _
  unfold boot
  rw [if_neg (by simp [hb])]
  dsimp only
  rw [ht]
  dsimp only
  rw [applyAll_append]
  exact save_file _ _ _

/-! ## C212: a first start that is stopped -/

/-- The changes of a first start before `router.toml`. -/
def before (e : Env C) : List Eff :=
  .mkBase :: mkNetDb ++ mkProfiles ++ save .static e.keys.static ++ save .signing e.keys.signing ++
    save .ntcp2 e.keys.ntcp2 ++ save .ssu2 e.keys.ssu2

theorem boot_first (e : Env C) : boot e {} = (before e ++ save .toml e.image, some (e.keys, e.default)) := by
  unfold boot before
  rw [if_pos rfl]

theorem before_toml (e : Env C) : ∀ x ∈ before e, hits .toml x = false := by
  have sh := fun m (bs : Bytes) (h : m ≠ Name.toml) => save_hits .toml m bs h
  unfold before
  exact append_hits (append_hits (append_hits (append_hits (append_hits (a := .mkBase :: mkNetDb)
    (by intro x hx; rcases List.mem_cons.1 hx with rfl | hx
        · rfl
        · exact netDb_hits _ x hx) (profiles_hits _))
    (sh .static _ (by decide))) (sh .signing _ (by decide))) (sh .ntcp2 _ (by decide))) (sh .ssu2 _ (by decide))

theorem config_of (e : Env C) (d : Disk) (hb : d.base = true) {bs : Bytes} {c : C}
    (hf : d.file .toml = some bs) (hc : e.parse bs = .valid c) (hk : e.check c = true) :
    ∃ k, (boot e d).2 = some (k, e.merge c) := by
  have ht : tomlOf e d = .ok (some c) := by
    unfold tomlOf; rw [hf]; dsimp only; rw [hc]
  unfold boot
  rw [if_neg (by simp [hb])]
  dsimp only
  rw [ht]
  dsimp only
  rw [if_pos hk]
  exact ⟨_, rfl⟩

/-- **C212**, violated: if the first start is stopped while it writes `router.toml`, the next starts use
the configuration that the written part happens to be, if it is one, in place of the default; the empty
beginning is one, in which nothing is enabled. -/
theorem C212_torn_violated (e e' : Env C) (m : Nat) (hm : m ≤ e.image.length) {c : C}
    (hc : e'.parse (e.image.take m) = .valid c) (hk : e'.check c = true) (os : List (Op C))
    (hos : ∀ o ∈ os, Respected o.env (e.image.take m)) :
    ∃ k, (step (runDisk (step {} { env := e, stop := some ((before e).length + (1 + m)) }).1 os) { env := e' }).2 =
      some (k, e'.merge c) := by
  have e1 : (boot e {}).1.take ((before e).length + (1 + m)) = before e ++ save .toml (e.image.take m) := by
    rw [boot_first, List.take_length_add_append]
    congr 1
    rw [save, Nat.add_comm 1 m, List.take_succ_cons, ← List.map_take]
    rfl
  have hd : ∀ d : Disk, d = (step {} { env := e, stop := some ((before e).length + (1 + m)) }).1 →
      d.base = true ∧ d.file .toml = some (e.image.take m) := by
    rintro d rfl
    show (Disk.applyAll {} _).base = true ∧ (Disk.applyAll {} _).file .toml = _
    dsimp only
    rw [e1]
    refine ⟨?_, ?_⟩
    · unfold before
      simp only [List.cons_append]
      exact base_cons _ _
    · rw [applyAll_append]
      exact save_file _ _ _
  obtain ⟨hb, hf⟩ := hd _ rfl
  have hb2 : (runDisk (step {} { env := e, stop := some ((before e).length + (1 + m)) }).1 os).base = true := by
    revert hb
    generalize (step {} { env := e, stop := some ((before e).length + (1 + m)) }).1 = d
    clear hf hd hos
    induction os generalizing d with
    | nil => exact id
    | cons o os ih =>
      intro h
      refine ih _ ?_
      show (step d o).1.base = true
      unfold step
      split <;> exact applyAll_base _ _ h
  have hf2 := C211_kept_partial os _ hb hf hos
  exact config_of e' _ hb2 hf2 hc hk

/-- **C212**, in part: if it is stopped before `router.toml` is made, the next start uses the default
configuration, changed by the arguments. -/
theorem C212_before_partial (e e' : Env C) (n : Nat) (hn : 0 < n) (hl : n ≤ (before e).length)
    (hk : e'.check e'.default = true) :
    ∃ k, (step (step {} { env := e, stop := some n }).1 { env := e' }).2 = some (k, e'.merge e'.default) := by
  have e1 : (boot e {}).1.take n = (before e).take n := by
    rw [boot_first, List.take_append_of_le_length hl]
  have hb : (step {} { env := e, stop := some n }).1.base = true := by
    show (Disk.applyAll {} ((boot e {}).1.take n)).base = true
    rw [e1]
    obtain ⟨j, rfl⟩ : ∃ j, n = j + 1 := ⟨n - 1, by omega⟩
    unfold before
    simp only [List.cons_append, List.take_succ_cons]
    exact base_cons _ _
  have hf : (step {} { env := e, stop := some n }).1.file .toml = none := by
    show (Disk.applyAll {} ((boot e {}).1.take n)).file .toml = none
    rw [e1, applyAll_file _ _ _ fun x hx => before_toml e x (List.mem_of_mem_take hx)]
  generalize (step {} { env := e, stop := some n }).1 = d at hb hf
  show ∃ k, (boot e' d).2 = _
  have ht : tomlOf e' d = .ok none := by unfold tomlOf; rw [hf]
  unfold boot
  rw [if_neg (by simp [hb])]
  dsimp only
  rw [ht]
  dsimp only
  rw [if_pos hk]
  exact ⟨_, rfl⟩

/-! ## C213: the arguments of the command line -/

/-- **C213**, violated: the first start pays no attention to the arguments. -/
theorem C213_first_violated (e : Env C) (args : C → C) (d : Disk) (hb : d.base = false) :
    (boot { e with merge := args } d).2 = some (e.keys, e.default) := by
  unfold boot
  rw [if_pos hb]

/-- **C213**, in part: every other start that ends well uses the arguments on top of the configuration
file, or of the default configuration. -/
theorem C213_later_partial (e : Env C) (d : Disk) (hb : d.base = true) {k : Keys} {c : C}
    (h : (boot e d).2 = some (k, c)) :
    ∃ c0, c = e.merge c0 ∧ (c0 = e.default ∨ ∃ bs, d.file .toml = some bs ∧ e.parse bs = .valid c0) := by
  unfold boot at h
  rw [if_neg (by simp [hb])] at h
  dsimp only at h
  unfold tomlOf at h
  cases hf : d.file .toml with
  | none =>
    rw [hf] at h
    dsimp only at h
    split at h
    · injection h with h; injection h with _ h; exact ⟨_, h.symm, .inl rfl⟩
    · cases h
  | some bs =>
    rw [hf] at h
    dsimp only at h
    cases hp : e.parse bs with
    | unreadable =>
      rw [hp] at h
      dsimp only at h
      split at h
      · injection h with h; injection h with _ h; exact ⟨_, h.symm, .inl rfl⟩
      · cases h
    | invalid =>
      rw [hp] at h
      dsimp only at h
      cases ho : e.overwrite with
      | false => rw [ho] at h; cases h
      | true =>
        rw [ho] at h
        simp only [if_true] at h
        split at h
        · injection h with h; injection h with _ h; exact ⟨_, h.symm, .inl rfl⟩
        · cases h
    | valid c0 =>
      rw [hp] at h
      dsimp only at h
      split at h
      · injection h with h; injection h with _ h; exact ⟨c0, h.symm, .inr ⟨bs, rfl, hp⟩⟩
      · cases h

/-! ## The cases occur -/

/-- A configuration is a number; texts of one byte are configurations, the empty text is 0. -/
def sampleEnv (b : UInt8) : Env Nat :=
  { keys := ⟨List.replicate 32 b, List.replicate 32 b, List.replicate 48 b, List.replicate 64 b⟩
    parse := fun bs => match bs with | [] => .valid 0 | [x] => .valid x.toNat | [_, _] => .invalid | _ => .unreadable
    default := 7, image := [7], check := fun _ => true, merge := (· + 100), overwrite := false }

theorem sample_fresh (b : UInt8) : Fresh (sampleEnv b) := by intro n; cases n <;> rfl

example : (step {} { env := sampleEnv 1 }).2 = some ((sampleEnv 1).keys, 7) := rfl
example : (step (step {} { env := sampleEnv 1, stop := some 140 }).1 { env := sampleEnv 2 }).2 =
    some (⟨List.replicate 32 2, List.replicate 32 2, List.replicate 48 2, List.replicate 64 2⟩, 107) := by decide +kernel
example : (step (runDisk (step {} { env := sampleEnv 1, stop := some 200 }).1 [{ env := sampleEnv 2 }])
    { env := sampleEnv 3 }).2 =
    some (⟨List.replicate 32 1, List.replicate 32 1, List.replicate 48 2, List.replicate 64 2⟩, 107) := by decide +kernel
example := C208_identity {} { env := sampleEnv 1 } (sample_fresh 1) rfl [{ env := sampleEnv 2, stop := some 1 }]
  { env := sampleEnv 3 } (k' := (sampleEnv 1).keys) (c' := 107) (by decide +kernel)
example := C210_stopped_violated (sampleEnv 1) 10 (by decide) [{ env := sampleEnv 2 }] 'z' (by decide)
example := C211_unreadable_violated (sampleEnv 1)
  { base := true, file := fun n => if n = .toml then some [1, 2, 3] else none } rfl rfl rfl
example := C212_torn_violated (sampleEnv 1) (sampleEnv 2) 0 (by decide) (c := 0) rfl rfl [] (by simp)
example := C209_short_violated (sampleEnv 2) (sample_fresh 2)
  { base := true, file := fun n => if n = .signing then some [1] else none } rfl .signing (by decide) rfl (by decide) rfl

end Emissary.Boot
