import Verif.Model.Su3
import Verif.Lemmas.Bytes
import Verif.Lemmas.Codec
import Mathlib.Data.List.Nodup
import Mathlib.Data.List.Perm.Subperm
/-!
# C204 to C207: reseeding
-/
namespace Emissary.Su3

/-! ## Specification: the file format -/

/-- A signed file. The unused bytes can be anything. -/
structure Doc where
  unused0 : UInt8
  format : UInt8
  sigKind : Nat
  unused1 : UInt8
  unused2 : UInt8
  unused3 : UInt8
  fileKind : Nat
  unused4 : UInt8
  contentKind : Nat
  padding : Bytes
  version : Bytes
  signer : Bytes
  content : Bytes
  signature : Bytes

/-- The kinds exist and the lengths fit their fields. -/
structure Doc.Valid (d : Doc) : Prop where
  sigKind : d.sigKind ∈ [0, 1, 2, 3, 4, 5, 6, 8]
  fileKind : d.fileKind ∈ [0, 1, 2, 3, 4, 5, 6]
  contentKind : d.contentKind ∈ [0, 1, 2, 3, 4, 5]
  padding : d.padding.length = 12
  version : d.version.length < 256
  signer : d.signer.length < 256
  content : d.content.length < 2 ^ 64
  signature : d.signature.length < 2 ^ 16

/-- The characters `I2Psu3`. -/
def tag : Bytes := "I2Psu3".toUTF8.toList

/-- The part that is signed. -/
def Doc.signed (d : Doc) : Bytes :=
  tag ++ ([d.unused0] ++ ([d.format] ++ (be 2 d.sigKind ++ (be 2 d.signature.length ++ ([d.unused1] ++
  (be 1 d.version.length ++ ([d.unused2] ++ (be 1 d.signer.length ++ (be 8 d.content.length ++ ([d.unused3] ++
  (be 1 d.fileKind ++ ([d.unused4] ++ (be 1 d.contentKind ++ (d.padding ++ (d.version ++ (d.signer ++
  d.content))))))))))))))))

/-- The whole file. -/
def Doc.image (d : Doc) : Bytes := d.signed ++ d.signature

/-! ## C204: reading -/

theorem sigKindOk_iff (n : Nat) : sigKindOk n = true ↔ n ∈ [0, 1, 2, 3, 4, 5, 6, 8] := by
  simp [sigKindOk]; omega
theorem fileKindOk_iff (n : Nat) : fileKindOk n = true ↔ n ∈ [0, 1, 2, 3, 4, 5, 6] := by
  simp [fileKindOk]; omega
theorem contentKindOk_iff (n : Nat) : contentKindOk n = true ↔ n ∈ [0, 1, 2, 3, 4, 5] := by
  simp [contentKindOk]; omega

theorem tag_eq : tag = magic := by decide +kernel

theorem beU_one (b : UInt8) (r : Bytes) : beU 1 ([b] ++ r) = some (b.toNat, r) := by
  rw [beU_append (by simp)]
  simp [unbe]

/-- What comes after the leading half. -/
def Doc.tail (d : Doc) (trail : Bytes) : Bytes :=
  [d.unused2] ++ (be 1 d.signer.length ++ (be 8 d.content.length ++ ([d.unused3] ++
  (be 1 d.fileKind ++ ([d.unused4] ++ (be 1 d.contentKind ++ (d.padding ++ (d.version ++ (d.signer ++
  (d.content ++ (d.signature ++ trail)))))))))))

theorem lead_image (d : Doc) (hd : d.Valid) (trail : Bytes) :
    lead (d.image ++ trail) = some ((d.sigKind, d.signature.length, d.version.length), d.tail trail) := by
  have h1 := hd.sigKind
  have hs : d.sigKind < 256 ^ 2 := by simp at h1; omega
  have e : d.image ++ trail = magic ++ ([d.unused0] ++ ([d.format] ++ (be 2 d.sigKind ++
      (be 2 d.signature.length ++ ([d.unused1] ++ (be 1 d.version.length ++ d.tail trail)))))) := by
    simp [Doc.image, Doc.signed, Doc.tail, tag_eq]
  have f0 : ∀ r, takeN 6 (magic ++ r) = some (magic, r) := fun r => takeN_append (by decide) r
  have f1 : ∀ r, beU 2 (be 2 d.sigKind ++ r) = some (d.sigKind, r) := fun r => beU_be_lt hs r
  have f2 : ∀ r, beU 2 (be 2 d.signature.length ++ r) = some (d.signature.length, r) :=
    fun r => beU_be_lt (by simpa using hd.signature) r
  have f3 : ∀ r, beU 1 (be 1 d.version.length ++ r) = some (d.version.length, r) :=
    fun r => beU_be_lt (by simpa using hd.version) r
  unfold lead
  simp only [e, f0, bind_some_pair, ne_eq, not_true_eq_false, if_false, beU_one, f1, (sigKindOk_iff _).2 h1,
    Bool.true_eq_false, f2, f3]

/-- What the reader says about a file. -/
def Doc.read (d : Doc) (trail : Bytes) : File :=
  { content := d.content, contentKind := d.contentKind, fileKind := d.fileKind,
    message := (d.image ++ trail).take (d.signature ++ trail).length,
    signature := d.signature, sigKind := d.sigKind, signer := d.signer, version := d.version }

theorem body_image (d : Doc) (hd : d.Valid) (trail : Bytes) :
    body (d.image ++ trail) d.sigKind d.signature.length d.version.length (d.tail trail) =
      some (d.read trail, trail) := by
  have h2 := hd.fileKind
  have h3 := hd.contentKind
  have hf : d.fileKind < 256 ^ 1 := by simp at h2; omega
  have hc : d.contentKind < 256 ^ 1 := by simp at h3; omega
  have f1 : ∀ r, beU 1 (be 1 d.signer.length ++ r) = some (d.signer.length, r) :=
    fun r => beU_be_lt (by simpa using hd.signer) r
  have f2 : ∀ r, beU 8 (be 8 d.content.length ++ r) = some (d.content.length, r) :=
    fun r => beU_be_lt (by simpa using hd.content) r
  have f3 : ∀ r, beU 1 (be 1 d.fileKind ++ r) = some (d.fileKind, r) := fun r => beU_be_lt hf r
  have f4 : ∀ r, beU 1 (be 1 d.contentKind ++ r) = some (d.contentKind, r) := fun r => beU_be_lt hc r
  have f5 : ∀ r, takeN 12 (d.padding ++ r) = some (d.padding, r) := fun r => takeN_append hd.padding r
  have f6 : ∀ l r : Bytes, takeN l.length (l ++ r) = some (l, r) := fun l r => takeN_append rfl r
  unfold body Doc.tail
  simp only [bind_some_pair, if_false, beU_one, f1, f2, f3, f4, f5, f6, (fileKindOk_iff _).2 h2,
    (contentKindOk_iff _).2 h3, Bool.true_eq_false]
  rfl

/-- **C204**: every file of the format is read, as what it is, whatever follows it; in a build with
debug assertions if its version has the sixteen bytes the format asks for. -/
theorem C204_read (chk : Bool) (d : Doc) (hd : d.Valid) (trail : Bytes) (hv : chk = true → 16 ≤ d.version.length) :
    parseInner chk (d.image ++ trail) = .ok (d.read trail) := by
  unfold parseInner
  rw [lead_image d hd trail]
  dsimp only
  rw [if_neg (by intro h; have := hv h.1; omega), body_image d hd trail]

theorem u8_be (b : UInt8) : be 1 b.toNat = [b] := by
  simp [be]

/-- **C204**: nothing else is read. -/
theorem C204_only (chk : Bool) (input : Bytes) (f : File) (h : parseInner chk input = .ok f) :
    ∃ (d : Doc) (trail : Bytes), d.Valid ∧ input = d.image ++ trail ∧ f = d.read trail ∧ (chk = true → 16 ≤ d.version.length) := by
  unfold parseInner at h
  split at h
  · cases h
  next sk sl vl r0 hl =>
  split at h
  · cases h
  next hv =>
  split at h
  · cases h
  next f' rest hb =>
  injection h with h
  subst h
  unfold lead at hl
  unbind hl with ⟨m, r1⟩ e1
  split at hl
  · cases hl
  next hm =>
  unbind hl with ⟨u0, r2⟩ e2
  unbind hl with ⟨u1, r3⟩ e3
  unbind hl with ⟨k, r4⟩ e4
  split at hl
  · cases hl
  next hk =>
  unbind hl with ⟨l, r5⟩ e5
  unbind hl with ⟨u2, r6⟩ e6
  unbind hl with ⟨v, r7⟩ e7
  injection hl with hl
  injection hl with hl hr
  injection hl with hk' hl
  injection hl with hl' hv'
  subst hk' hl' hv' hr
  unfold body at hb
  unbind hb with ⟨u3, s1⟩ g1
  unbind hb with ⟨sn, s2⟩ g2
  unbind hb with ⟨cl, s3⟩ g3
  unbind hb with ⟨u4, s4⟩ g4
  unbind hb with ⟨fk, s5⟩ g5
  split at hb
  · cases hb
  next hfk =>
  unbind hb with ⟨u5, s6⟩ g6
  unbind hb with ⟨ck, s7⟩ g7
  split at hb
  · cases hb
  next hck =>
  unbind hb with ⟨pad, s8⟩ g8
  unbind hb with ⟨ver, s9⟩ g9
  unbind hb with ⟨sig, s10⟩ g10
  unbind hb with ⟨con, s11⟩ g11
  unbind hb with ⟨sgn, s12⟩ g12
  injection hb with hb
  injection hb with hf hrest
  subst hrest
  obtain ⟨e1, -⟩ := takeN_some e1
  obtain ⟨e2, b2⟩ := beU_some e2
  obtain ⟨e3, b3⟩ := beU_some e3
  obtain ⟨e4, b4⟩ := beU_some e4
  obtain ⟨e5, b5⟩ := beU_some e5
  obtain ⟨e6, b6⟩ := beU_some e6
  obtain ⟨e7, b7⟩ := beU_some e7
  obtain ⟨g1, c1⟩ := beU_some g1
  obtain ⟨g2, c2⟩ := beU_some g2
  obtain ⟨g3, c3⟩ := beU_some g3
  obtain ⟨g4, c4⟩ := beU_some g4
  obtain ⟨g5, c5⟩ := beU_some g5
  obtain ⟨g6, c6⟩ := beU_some g6
  obtain ⟨g7, c7⟩ := beU_some g7
  obtain ⟨g8, c8⟩ := takeN_some g8
  obtain ⟨g9, c9⟩ := takeN_some g9
  obtain ⟨g10, c10⟩ := takeN_some g10
  obtain ⟨g11, c11⟩ := takeN_some g11
  obtain ⟨g12, c12⟩ := takeN_some g12
  have hm : m = tag := by rw [tag_eq]; simpa using hm
  have one : ∀ n : Nat, n < 256 ^ 1 → be 1 n = [UInt8.ofNat n] := by intro n _; simp [be]
  let d : Doc := ⟨UInt8.ofNat u0, UInt8.ofNat u1, k, UInt8.ofNat u2, UInt8.ofNat u3, UInt8.ofNat u4, fk,
    UInt8.ofNat u5, ck, pad, ver, sig, con, sgn⟩
  have hin : input = d.image ++ s12 := by
    simp only [d, Doc.image, Doc.signed, c9, c10, c11, c12, ← one _ b2, ← one _ b3, ← one _ b6, ← one _ c1, ← one _ c4,
      ← one _ c6]
    rw [e1, hm, e2, e3, e4, e5, e6, e7, g1, g2, g3, g4, g5, g6, g7, g8, g9, g10, g11, g12]
    simp only [List.append_assoc]
  refine ⟨d, s12, ⟨(sigKindOk_iff _).1 (by simpa using hk), (fileKindOk_iff _).1 (by simpa using hfk),
      (contentKindOk_iff _).1 (by simpa using hck), c8, ?_, ?_, ?_, ?_⟩, hin, ?_, ?_⟩
  · show ver.length < 256; rw [c9]; simpa using b7
  · show sig.length < 256; rw [c10]; simpa using c2
  · show con.length < 2 ^ 64; rw [c11]; simpa using c3
  · show sgn.length < 2 ^ 16; rw [c12]; simpa using b5
  · rw [← hf]
    unfold Doc.read
    rw [← hin, g12]
  · intro hc
    show 16 ≤ ver.length
    rw [c9]
    have : ¬ v < 16 := fun x => hv ⟨hc, x⟩
    omega

/-! ## C205: the signature -/

/-- Reseed data. -/
def Doc.reseed (d : Doc) : Prop := d.fileKind = 0 ∧ d.contentKind = 3

theorem reseed_eq (chk : Bool) (judge : File → Verdict) (zip : Bytes → Option (List (Option Entry)))
    (d : Doc) (hd : d.Valid) (hr : d.reseed) (hv : 16 ≤ d.version.length) (trail : Bytes) (verify : Bool) :
    parseReseed chk judge zip (d.image ++ trail) verify =
      ((match zip d.content with | none => .fail | some es => unpack es),
        if verify = true then judge (d.read trail) else .silent) := by
  unfold parseReseed
  rw [C204_read chk d hd trail fun _ => hv]
  dsimp only
  rw [if_pos (show (d.read trail).fileKind = 0 ∧ (d.read trail).contentKind = 3 from hr)]
  show (match zip d.content with | none => _ | some es => _) = _
  cases zip d.content <;> rfl

/-- **C205**, violated: the routers that are taken from a file do not depend on who signed it and how:
any two files with the same archive give the same routers, with and without the check, whichever keys
are known and whatever the check says. -/
theorem C205_unsigned_violated (chk : Bool) (judge judge' : File → Verdict)
    (zip : Bytes → Option (List (Option Entry))) (d d' : Doc) (hd : d.Valid) (hd' : d'.Valid)
    (hr : d.reseed) (hr' : d'.reseed) (hv : 16 ≤ d.version.length) (hv' : 16 ≤ d'.version.length)
    (hc : d.content = d'.content) (trail trail' : Bytes) (verify verify' : Bool) :
    (parseReseed chk judge zip (d.image ++ trail) verify).1 =
      (parseReseed chk judge' zip (d'.image ++ trail') verify').1 := by
  rw [reseed_eq chk judge zip d hd hr hv, reseed_eq chk judge' zip d' hd' hr' hv', hc]

/-- **C205**, violated: a genuine signature is reported as a bad one: if a signer's key accepts
nothing but the part of the file before the signature, then the check fails for every file whose
signature is not as long as this part. -/
theorem C205_genuine_violated (chk : Bool) (utf8 : Bytes → Bool) (keys : Bytes → Option Nat)
    (sigOk : Bytes → Bool) (check : Nat → Bytes → Bytes → Bool)
    (zip : Bytes → Option (List (Option Entry))) (d : Doc) (hd : d.Valid)
    (hr : d.reseed) (hv : 16 ≤ d.version.length) (k : Nat) (hu : utf8 d.signer = true) (hk : keys d.signer = some k)
    (hs : sigOk d.signature = true) (hcheck : ∀ m, check k m d.signature = true → m = d.signed)
    (hl : d.signature.length ≠ d.signed.length) :
    (parseReseed chk (judge utf8 keys sigOk check) zip d.image true).2 = .badSignature := by
  have := reseed_eq chk (judge utf8 keys sigOk check) zip d hd hr hv [] true
  rw [List.append_nil] at this
  rw [this]
  show judge utf8 keys sigOk check (d.read []) = _
  unfold judge Doc.read
  dsimp only
  rw [if_pos hu, hk]
  dsimp only
  rw [hs]
  have hne : check k (List.take (d.signature ++ []).length (d.image ++ [])) d.signature = false := by
    cases hc : check k (List.take (d.signature ++ []).length (d.image ++ [])) d.signature with
    | false => rfl
    | true =>
      have := congrArg List.length (hcheck _ hc)
      simp only [List.append_nil, List.length_take, Doc.image, List.length_append] at this
      omega
  rw [hne]
  rfl

/-- What is taken from an entry: a file with a name inside the directory and data that can be unpacked. -/
def taken : Option Entry → Option (String × Bytes)
  | some ⟨some name, true, some d⟩ => some (name, d)
  | _ => none

theorem unpack_ok (es : List (Option Entry)) (h : none ∉ es) : unpack es = .ok (es.filterMap taken) := by
  induction es with
  | nil => rfl
  | cons e es ih =>
    rw [List.mem_cons, not_or] at h
    cases e with
    | none => exact absurd rfl h.1
    | some e =>
      rw [unpack, ih h.2, List.filterMap_cons]
      obtain ⟨n, f, d⟩ := e
      cases n <;> cases f <;> cases d <;> rfl

theorem unpack_none (es : List (Option Entry)) (h : none ∈ es) : unpack es = .panic := by
  induction es with
  | nil => cases h
  | cons e es ih =>
    cases e with
    | none => rfl
    | some e =>
      rw [List.mem_cons] at h
      rw [unpack, ih (h.resolve_left (by simp))]

/-- **C205**, in part: only archives of reseed data are used, and what is taken are the files in them, in
their order. -/
theorem C205_kind_partial (chk : Bool) (judge : File → Verdict) (zip : Bytes → Option (List (Option Entry)))
    (input : Bytes) (verify : Bool) (rs : List (String × Bytes))
    (h : (parseReseed chk judge zip input verify).1 = .ok rs) :
    ∃ (d : Doc) (trail : Bytes) (es : List (Option Entry)), d.Valid ∧ d.reseed ∧ input = d.image ++ trail ∧ zip d.content = some es ∧
      rs = es.filterMap taken := by
  unfold parseReseed at h
  split at h
  · cases h
  · cases h
  next f hf =>
  obtain ⟨d, trail, hd, hi, rfl, -⟩ := C204_only chk input f hf
  dsimp only at h
  split at h
  case isFalse => cases h
  next hk =>
  split at h
  · cases h
  next es hz =>
  refine ⟨d, trail, es, hd, hk, hi, hz, ?_⟩
  by_cases hn : none ∈ es
  · rw [show unpack es = .panic from unpack_none es hn] at h; cases h
  · rw [show unpack es = _ from unpack_ok es hn] at h; injection h with h; exact h.symm

/-- **C205**, in part: and every file in the archive of a file of reseed data is taken. -/
theorem C205_files_partial (chk : Bool) (judge : File → Verdict) (zip : Bytes → Option (List (Option Entry)))
    (d : Doc) (hd : d.Valid) (hr : d.reseed) (hv : 16 ≤ d.version.length) (trail : Bytes) (verify : Bool)
    (es : List (Option Entry)) (hz : zip d.content = some es) (hn : none ∉ es) :
    (parseReseed chk judge zip (d.image ++ trail) verify).1 = .ok (es.filterMap taken) := by
  rw [reseed_eq chk judge zip d hd hr hv, hz]
  exact unpack_ok es hn

/-! ## C206: no file can end the program -/

theorem unpack_panic (es : List (Option Entry)) : unpack es = .panic ↔ none ∈ es := by
  induction es with
  | nil => simp [unpack]
  | cons e es ih =>
    cases e with
    | none => simp [unpack]
    | some e =>
      rw [unpack, List.mem_cons, ← ih]
      simp only [reduceCtorEq, false_or]
      cases h : unpack es with
      | panic => simp
      | fail => simp
      | ok r =>
        dsimp only
        constructor
        · intro x
          exfalso
          split at x
          · cases x
          · split at x
            · cases x
            · split at x <;> cases x
        · intro x; cases x

/-- **C206**, violated: an archive with an entry that cannot be read ends the program, in every build. -/
theorem C206_entry_violated (chk : Bool) (judge : File → Verdict) (zip : Bytes → Option (List (Option Entry)))
    (d : Doc) (hd : d.Valid) (hr : d.reseed) (hv : 16 ≤ d.version.length) (trail : Bytes) (verify : Bool)
    (es : List (Option Entry)) (hz : zip d.content = some es) (he : none ∈ es) :
    (parseReseed chk judge zip (d.image ++ trail) verify).1 = .panic := by
  rw [reseed_eq chk judge zip d hd hr hv, hz]
  exact (unpack_panic es).2 he

/-- **C206**, violated: in a build with debug assertions so does every file with a version of less than
sixteen bytes. -/
theorem C206_version_violated (judge : File → Verdict) (zip : Bytes → Option (List (Option Entry)))
    (d : Doc) (hd : d.Valid) (hv : d.version.length < 16) (trail : Bytes) (verify : Bool) :
    (parseReseed true judge zip (d.image ++ trail) verify).1 = .panic := by
  unfold parseReseed parseInner
  rw [lead_image d hd trail]
  dsimp only
  rw [if_pos ⟨rfl, hv⟩]

/-- **C206**, in part: without debug assertions nothing else does. -/
theorem C206_safe_partial (judge : File → Verdict) (zip : Bytes → Option (List (Option Entry)))
    (input : Bytes) (verify : Bool) (hz : ∀ b es, zip b = some es → none ∉ es) :
    (parseReseed false judge zip input verify).1 ≠ .panic := by
  unfold parseReseed
  cases hp : parseInner false input with
  | panic =>
    exfalso
    unfold parseInner at hp
    split at hp
    · cases hp
    · split at hp
      · next h => cases h.1
      · split at hp <;> cases hp
  | fail => simp
  | ok f =>
    dsimp only
    split
    · split
      · simp
      · next es h =>
        intro x
        exact hz _ _ h ((unpack_panic es).1 x)
    · simp

/-! ## C207: the reseed servers -/

theorem pick_some {tried rs rs' : List Nat} {s : Nat} (h : pick tried rs = some (s, rs')) :
    s ∉ tried ∧ s ∈ rs ∧ rs' <:+ rs ∧ ∀ x ∈ rs, x ∈ tried ∨ x = s ∨ x ∈ rs' := by
  induction rs with
  | nil => cases h
  | cons r rs ih =>
    rw [pick] at h
    split at h
    · next hr =>
      obtain ⟨a, b, c, d⟩ := ih h
      refine ⟨a, List.mem_cons_of_mem _ b, c.trans (List.suffix_cons _ _), ?_⟩
      intro x hx
      rcases List.mem_cons.1 hx with rfl | hx
      · exact .inl (by simpa using hr)
      · exact d x hx
    · next hr =>
      cases h
      refine ⟨by simpa using hr, by simp, List.suffix_cons _ _, ?_⟩
      intro x hx
      rcases List.mem_cons.1 hx with rfl | hx
      · exact .inr (.inl rfl)
      · exact .inr (.inr hx)

theorem pick_none {tried rs : List Nat} (h : pick tried rs = none) : ∀ x ∈ rs, x ∈ tried := by
  induction rs with
  | nil => simp
  | cons r rs ih =>
    rw [pick] at h
    split at h
    · next hr =>
      intro x hx
      rcases List.mem_cons.1 hx with rfl | hx
      · simpa using hr
      · exact ih h x hx
    · cases h

/-- How the servers asked explain the outcome. -/
def Explains (answer : Nat → Option (List (String × Bytes))) (limit : Nat) (asked : List Nat) : Outcome → Prop
  | .panic => False
  | .running => ∀ s ∈ asked, answer s = none
  | .failed => asked.length = limit ∧ ∀ s ∈ asked, answer s = none
  | .done s routers => answer s = some routers ∧ ∃ before, asked = before ++ [s] ∧ ∀ x ∈ before, answer x = none

theorem attempts_spec (answer : Nat → Option (List (String × Bytes))) (hosts limit : Nat) :
    ∀ left tried rs, left + tried.length = limit → tried.Nodup → (∀ s ∈ tried, s < hosts ∧ answer s = none) →
      (∀ r ∈ rs, r < hosts) →
      (attempts answer left tried rs).2.Nodup ∧ (attempts answer left tried rs).2.length ≤ limit ∧
      (∀ s ∈ (attempts answer left tried rs).2, s < hosts) ∧
      Explains answer limit (attempts answer left tried rs).2 (attempts answer left tried rs).1 := by
  intro left
  induction left with
  | zero =>
    intro tried rs hl hn ht hr
    exact ⟨hn, by show tried.length ≤ _; omega, fun s hs => (ht s hs).1, by show tried.length = _; omega, fun s hs => (ht s hs).2⟩
  | succ left ih =>
    intro tried rs hl hn ht hr
    rw [attempts]
    cases hp : pick tried rs with
    | none => exact ⟨hn, by show tried.length ≤ _; omega, fun s hs => (ht s hs).1, fun s hs => (ht s hs).2⟩
    | some x =>
      obtain ⟨s, rs'⟩ := x
      obtain ⟨a, b, c, -⟩ := pick_some hp
      have hn' : (tried ++ [s]).Nodup := by
        rw [List.nodup_append]
        refine ⟨hn, by simp, ?_⟩
        intro x hx y hy
        simp only [List.mem_singleton] at hy
        subst hy
        rintro rfl
        exact a hx
      dsimp only
      cases hs : answer s with
      | some routers =>
        refine ⟨hn', by simp; omega, ?_, hs, tried, rfl, fun x hx => (ht x hx).2⟩
        intro x hx
        rcases List.mem_append.1 hx with hx | hx
        · exact (ht x hx).1
        · simp only [List.mem_singleton] at hx; subst hx; exact hr x b
      | none =>
        refine ih (tried ++ [s]) rs' (by simp; omega) hn' ?_ fun r h => hr r (c.subset h)
        intro x hx
        rcases List.mem_append.1 hx with hx | hx
        · exact ht x hx
        · simp only [List.mem_singleton] at hx; subst hx; exact ⟨hr x b, hs⟩

/-- **C207**, in part: no server is asked twice and at most five are asked, whatever the random numbers
are; the routers are those of the first server with a usable answer, and reseeding fails only if five
servers had none. -/
theorem C207_asked_partial (hosts : Nat) (hh : 0 < hosts) (answer : Nat → Option (List (String × Bytes)))
    (rs : List Nat) (hr : ∀ r ∈ rs, r < hosts) :
    (reseed hosts answer rs).2.Nodup ∧ (reseed hosts answer rs).2.length ≤ 5 ∧
    (∀ s ∈ (reseed hosts answer rs).2, s < hosts) ∧
    Explains answer 5 (reseed hosts answer rs).2 (reseed hosts answer rs).1 := by
  unfold reseed
  rw [if_neg (by omega)]
  exact attempts_spec answer hosts 5 5 [] rs rfl List.nodup_nil (by simp) hr

/-- **C207**, violated: with fewer than five servers, none of which has a usable answer, reseeding
never ends: it draws random numbers for ever. -/
theorem C207_stuck_violated (hosts : Nat) (hh : 0 < hosts) (h5 : hosts < 5)
    (answer : Nat → Option (List (String × Bytes))) (ha : ∀ s < hosts, answer s = none)
    (rs : List Nat) (hr : ∀ r ∈ rs, r < hosts) :
    (reseed hosts answer rs).1 = .running := by
  have h := C207_asked_partial hosts hh answer rs hr
  obtain ⟨h1, h2, h3, h4⟩ := h
  have hlen : (reseed hosts answer rs).2.length ≤ hosts := by
    have : (reseed hosts answer rs).2.Subperm (List.range hosts) :=
      List.Nodup.subperm h1 fun x hx => List.mem_range.2 (h3 x hx)
    simpa using this.length_le
  revert h4 hlen h3
  generalize reseed hosts answer rs = x at h1 h2
  obtain ⟨o, asked⟩ := x
  intro h3 h4 hlen
  dsimp only at *
  cases o with
  | panic => exact h4.elim
  | running => rfl
  | failed => have := h4.1; omega
  | done s r =>
    exfalso
    obtain ⟨e1, b, e2, -⟩ := h4
    have := ha s (h3 s (by rw [e2]; simp))
    rw [this] at e1; cases e1

/-- **C207**, violated: with an empty list of servers it panics. -/
theorem C207_empty_violated (answer : Nat → Option (List (String × Bytes))) (rs : List Nat) :
    (reseed 0 answer rs).1 = .panic := rfl

theorem attempts_ends (answer : Nat → Option (List (String × Bytes))) : ∀ left tried rs (five : List Nat),
    five.Nodup → (∀ x ∈ five, x ∈ tried ∨ x ∈ rs) → tried.length + left ≤ five.length →
    (attempts answer left tried rs).1 ≠ .running := by
  intro left
  induction left with
  | zero => intro tried rs five _ _ _; simp [attempts]
  | succ left ih =>
    intro tried rs five hn hf hl
    rw [attempts]
    cases hp : pick tried rs with
    | none =>
      exfalso
      have hsub : five.Subperm tried := List.Nodup.subperm hn fun x hx => by
        rcases hf x hx with h | h
        · exact h
        · exact pick_none hp x h
      have := hsub.length_le
      omega
    | some x =>
      obtain ⟨s, rs'⟩ := x
      obtain ⟨a, b, c, d⟩ := pick_some hp
      dsimp only
      cases hs : answer s with
      | some routers => simp
      | none =>
        refine ih (tried ++ [s]) rs' five hn ?_ (by simp; omega)
        intro x hx
        rcases hf x hx with h | h
        · exact .inl (by simp [h])
        · rcases d x h with h | h | h
          · exact .inl (by simp [h])
          · exact .inl (by simp [h])
          · exact .inr h

/-- **C207**, in part: as soon as five different servers have been drawn reseeding has ended. -/
theorem C207_ends_partial (hosts : Nat) (hh : 0 < hosts) (answer : Nat → Option (List (String × Bytes)))
    (rs five : List Nat) (hn : five.Nodup) (h5 : 5 ≤ five.length) (hf : ∀ x ∈ five, x ∈ rs) :
    (reseed hosts answer rs).1 ≠ .running := by
  unfold reseed
  rw [if_neg (by omega)]
  exact attempts_ends answer 5 [] rs five hn (fun x hx => .inr (hf x hx)) (by simpa using h5)

/-! ## The cases occur -/

def sample : Doc :=
  { unused0 := 0, format := 0, sigKind := 6, unused1 := 0, unused2 := 0, unused3 := 0, fileKind := 0, unused4 := 0,
    contentKind := 3, padding := List.replicate 12 0, version := List.replicate 16 49, signer := [97, 98],
    content := [1, 2, 3], signature := [9, 9] }

theorem sample_valid : sample.Valid :=
  ⟨by decide, by decide, by decide, by decide, by decide, by decide, by decide, by decide⟩

def sampleZip : Bytes → Option (List (Option Entry)) := fun b =>
  if b = [1, 2, 3] then some [some ⟨some "a", true, some [7]⟩, some ⟨none, true, some [8]⟩] else none

example : (parseReseed true (fun _ => .silent) sampleZip sample.image true).1 = .ok [("a", [7])] := by decide +kernel
example := C204_read true sample sample_valid [5] (by decide)
example := C205_unsigned_violated true (fun _ => .badSignature) (fun _ => .silent) sampleZip sample
  { sample with signature := [], signer := [] } sample_valid
  ⟨by decide, by decide, by decide, by decide, by decide, by decide, by decide, by decide⟩ (by unfold Doc.reseed; decide)
  (by unfold Doc.reseed; decide) (by decide) (by decide) rfl [] [] true false
example := C205_genuine_violated true (fun _ => true) (fun _ => some 1) (fun _ => true)
  (fun _ m _ => m = sample.signed) sampleZip sample sample_valid (by unfold Doc.reseed; decide) (by decide) 1 rfl rfl rfl
  (fun m h => by simpa using h) (by decide +kernel)
example := C206_entry_violated false (fun _ => .silent) (fun _ => some [none]) sample sample_valid
  (by unfold Doc.reseed; decide) (by decide) [] true [none] rfl (by simp)
example := C206_version_violated (fun _ => .silent) sampleZip { sample with version := [49] }
  ⟨by decide, by decide, by decide, by decide, by decide, by decide, by decide, by decide⟩ (by decide) [] true
example : reseed 6 (fun s => if s = 4 then some [] else none) [1, 1, 3, 1, 4, 0] = (.done 4 [], [1, 3, 4]) := by decide
example : (reseed 6 (fun _ => none) [1, 1, 3, 1, 4, 0, 4, 5]).1 = .failed := by decide
example := C207_stuck_violated 3 (by decide) (by decide) (fun _ => none) (fun _ _ => rfl) [0, 1, 2, 0, 1, 2] (by decide)
example := C207_ends_partial 6 (by decide) (fun _ => none) [1, 1, 3, 1, 4, 0, 4, 5] [0, 1, 3, 4, 5] (by decide) (by decide)
  (by decide)

end Emissary.Su3
