import Verif.Model.HttpProxy
/-!
# C200 to C203: the HTTP proxy
-/
namespace Emissary.HttpProxy

/-! ## Specification: a request as the destination reads it -/

/-- The text before the first line end, and what follows. -/
def takeLine : Bytes → Option (Bytes × Bytes)
  | 13 :: 10 :: s => some ([], s)
  | b :: s => (takeLine s).map fun p => (b :: p.1, p.2)
  | [] => none

/-- The text before the first byte `c`, and what follows. -/
def takeTo (c : UInt8) : Bytes → Option (Bytes × Bytes)
  | [] => none
  | b :: s => if b = c then some ([], s) else (takeTo c s).map fun p => (b :: p.1, p.2)

/-- A header line: the name before the first colon, the value after it without the blank. -/
def readHeader (l : Bytes) : Option Header :=
  (takeTo 58 l).map fun p => (p.1, match p.2 with | 32 :: v => v | v => v)

/-- Header lines up to an empty line, at most `fuel` of them, and what follows. -/
def readHeaders : (fuel : Nat) → Bytes → Option (List Header × Bytes)
  | 0, _ => none
  | fuel + 1, s =>
    match takeLine s with
    | none => none
    | some ([], rest) => some ([], rest)
    | some (l, rest) =>
      match readHeader l, readHeaders fuel rest with
      | some h, some (hs, body) => some (h :: hs, body)
      | _, _ => none

/-- A request: method, target, version, headers and body. -/
structure Request where
  method : Bytes
  target : Bytes
  version : Bytes
  headers : List Header
  body : Bytes
  deriving DecidableEq

/-- Reading a request. -/
def readReq (s : Bytes) : Option Request :=
  match takeLine s with
  | none => none
  | some (l, rest) =>
    match takeTo 32 l with
    | none => none
    | some (m, l) =>
      match takeTo 32 l with
      | none => none
      | some (t, v) =>
        match readHeaders s.length rest with
        | none => none
        | some (hs, body) => some { method := m, target := t, version := v, headers := hs, body }

/-- The name of a header is `n`, given in small letters. -/
abbrev Named (n : String) (h : Header) : Prop := lower h.1 = str n
/-- The name of a header begins with `n`, given in small letters. -/
abbrev Begins (n : String) (h : Header) : Prop := str n <+: lower h.1

/-- What is promised about each header. -/
def treat (utf8 : Bytes → Bool) (host : Bytes) (h : Header) : Option Header :=
  if Named "user-agent" h then some (str "User-Agent", str "MYOB/6.66 (AN/ON)")
  else if Named "accept-encoding" h then some (str "Accept-Encoding", h.2)
  else if Named "connection" h then
    some (str "Connection", if utf8 h.2 = true ∧ lower h.2 = str "upgrade" then str "upgrade" else str "close")
  else if Named "referer" h then
    if utf8 h.2 = true ∧ contains h.2 host = true then some (str "Referer", h.2) else none
  else if Begins "accept" h ∨ Begins "referer" h ∨ Begins "x-requested-with" h ∨ Begins "via" h ∨
      Begins "from" h ∨ Begins "forwarded" h ∨ Begins "dnt" h ∨ Begins "x-forwarded" h ∨ Begins "proxy-" h then none
  else some h

/-- What `httparse` guarantees about the requests it accepts: names are not empty and have no colon
and no line end, values and targets have no line end, targets have no blank. -/
structure WellFormed (target : Bytes → Bytes) (r : Head) : Prop where
  name : ∀ h ∈ r.headers, h.1 ≠ [] ∧ 58 ∉ h.1 ∧ 13 ∉ h.1
  value : ∀ h ∈ r.headers, 13 ∉ h.2
  path : ∀ p, r.path = some p → 32 ∉ target p ∧ 13 ∉ target p

/-! ## Text -/

theorem takeLine_append (l s : Bytes) (h : 13 ∉ l) : takeLine (l ++ 13 :: 10 :: s) = some (l, s) := by
  induction l with
  | nil => rfl
  | cons b l ih =>
    simp only [List.mem_cons, not_or] at h
    rw [List.cons_append, takeLine, ih h.2]
    · rfl
    · intro x h1; exact absurd h1.symm h.1

theorem takeTo_append (c : UInt8) (l s : Bytes) (h : c ∉ l) : takeTo c (l ++ c :: s) = some (l, s) := by
  induction l with
  | nil => simp [takeTo]
  | cons b l ih =>
    simp only [List.mem_cons, not_or] at h
    rw [List.cons_append, takeTo, if_neg (Ne.symm h.1), ih h.2]
    rfl

theorem str_crlf : str "\r\n" = [13, 10] := by decide
theorem str_colon : str ": " = [58, 32] := by decide

theorem line_eq (n v : Bytes) : line n v = (n ++ 58 :: 32 :: v) ++ [13, 10] := by
  simp [line, str_crlf, str_colon]

theorem readHeader_line (n v : Bytes) (h : 58 ∉ n) : readHeader (n ++ 58 :: 32 :: v) = some (n, v) := by
  simp [readHeader, takeTo_append 58 n _ h]

theorem prefix_iff (p l : Bytes) : p.isPrefixOf l = true ↔ p <+: l := List.isPrefixOf_iff_prefix

/-- The bytes a header contributes are its promised line. -/
theorem sanitize_eq (utf8 : Bytes → Bool) (host : Bytes) (h : Header) :
    sanitizeHeader utf8 host h = ((treat utf8 host h).map fun x => line x.1 x.2).getD [] := by
  unfold sanitizeHeader treat Named Begins
  by_cases h1 : lower h.1 = str "user-agent"
  · rw [if_pos h1, if_pos h1]; decide
  rw [if_neg h1, if_neg h1]
  by_cases h2 : lower h.1 = str "accept-encoding"
  · rw [if_pos h2, if_pos (by rw [h2]; decide), if_pos h2]; rfl
  rw [if_neg h2, if_neg h2]
  by_cases h3 : lower h.1 = str "connection"
  · rw [if_neg (by rw [h3]; decide), if_pos h3, if_pos h3]
    by_cases h4 : utf8 h.2 = true ∧ lower h.2 = str "upgrade"
    · rw [if_pos h4, if_pos h4]; decide
    · rw [if_neg h4, if_neg h4]; decide
  rw [if_neg h3, if_neg h3]
  by_cases h4 : lower h.1 = str "referer"
  · rw [if_neg (by rw [h4]; decide), if_pos h4, if_pos h4]
    by_cases h5 : utf8 h.2 = true
    · by_cases h6 : contains h.2 host = true
      · rw [if_pos h5, if_pos h6, if_pos ⟨h5, h6⟩]; rfl
      · rw [if_pos h5, if_neg h6, if_neg fun x => h6 x.2]; rfl
    · rw [if_neg h5, if_neg fun x => h5 x.1]; rfl
  rw [if_neg h4, if_neg h4]
  simp only [illegal, List.any_cons, List.any_nil, Bool.or_false, Bool.or_eq_true, prefix_iff]
  by_cases h5 : str "accept" <+: lower h.1
  · rw [if_pos h5, if_pos (.inl h5)]; rfl
  · rw [if_neg h5]
    split <;> rfl

/-- What is promised about a well formed header is well formed. -/
theorem treat_ok (utf8 : Bytes → Bool) (host : Bytes) {h x : Header}
    (hn : h.1 ≠ [] ∧ 58 ∉ h.1 ∧ 13 ∉ h.1) (hv : 13 ∉ h.2) (ht : treat utf8 host h = some x) :
    x.1 ≠ [] ∧ 58 ∉ x.1 ∧ 13 ∉ x.1 ∧ 13 ∉ x.2 := by
  unfold treat at ht
  split at ht
  · cases ht; decide
  split at ht
  · cases ht; exact ⟨by dsimp only; decide, by dsimp only; decide, by dsimp only; decide, hv⟩
  split at ht
  · cases ht
    refine ⟨by dsimp only; decide, by dsimp only; decide, by dsimp only; decide, ?_⟩
    dsimp only
    split <;> decide
  split at ht
  · split at ht
    · cases ht; exact ⟨by dsimp only; decide, by dsimp only; decide, by dsimp only; decide, hv⟩
    · cases ht
  split at ht
  · cases ht
  · cases ht; exact ⟨hn.1, hn.2.1, hn.2.2, hv⟩

theorem readHeaders_append (utf8 : Bytes → Bool) (host body : Bytes) (hs : List Header)
    (hw : ∀ h ∈ hs, (h.1 ≠ [] ∧ 58 ∉ h.1 ∧ 13 ∉ h.1) ∧ 13 ∉ h.2) : ∀ fuel,
    (hs.filterMap (treat utf8 host)).length < fuel →
    readHeaders fuel (hs.flatMap (sanitizeHeader utf8 host) ++ str "\r\n" ++ body) =
      some (hs.filterMap (treat utf8 host), body) := by
  induction hs with
  | nil =>
    intro fuel hf
    obtain ⟨n, rfl⟩ := Nat.exists_eq_add_of_lt hf
    simp only [List.filterMap_nil, List.flatMap_nil, List.nil_append, str_crlf]
    rfl
  | cons h hs ih =>
    intro fuel hf
    have hw' := hw h (by simp)
    have ih := ih fun x hx => hw x (List.mem_cons_of_mem _ hx)
    rw [List.flatMap_cons, sanitize_eq]
    cases ht : treat utf8 host h with
    | none =>
      rw [List.filterMap_cons, ht] at hf ⊢
      exact ih fuel hf
    | some x =>
      rw [List.filterMap_cons, ht] at hf ⊢
      simp only [List.length_cons] at hf
      obtain ⟨a, b, c, d⟩ := treat_ok utf8 host hw'.1 hw'.2 ht
      cases fuel with
      | zero => omega
      | succ fuel =>
        have e : (((some x).map fun x => line x.1 x.2).getD [] ++ hs.flatMap (sanitizeHeader utf8 host)) ++
            str "\r\n" ++ body = (x.1 ++ 58 :: 32 :: x.2) ++ 13 :: 10 ::
              (hs.flatMap (sanitizeHeader utf8 host) ++ str "\r\n" ++ body) := by
          simp [line_eq]
        rw [e, readHeaders, takeLine_append _ _ (by simp [c, d])]
        obtain ⟨k, t, ek⟩ : ∃ k t, x.1 ++ 58 :: 32 :: x.2 = k :: t := by
          cases hx : x.1 with
          | nil => exact absurd hx a
          | cons k t => exact ⟨k, t ++ 58 :: 32 :: x.2, rfl⟩
        have e2 := readHeader_line x.1 x.2 b
        rw [ek] at e2 ⊢
        dsimp only
        rw [e2, ih fuel (by omega)]

theorem sanitized_length (utf8 : Bytes → Bool) (host : Bytes) (hs : List Header) :
    (hs.filterMap (treat utf8 host)).length ≤ (hs.flatMap (sanitizeHeader utf8 host)).length := by
  induction hs with
  | nil => simp
  | cons h hs ih =>
    rw [List.flatMap_cons, sanitize_eq, List.filterMap_cons]
    cases treat utf8 host h with
    | none => simpa using ih
    | some x =>
      simp only [Option.map_some, Option.getD_some, List.length_cons, List.length_append, line_eq]
      omega

/-! ## C200: the request that is sent -/

/-- **C200**: the destination reads a request with the method and the target of the browser's request,
the promised form of each of its headers in their order and no others, and the bytes that were read
after the head. -/
theorem C200_sent (utf8 : Bytes → Bool) (target : Bytes → Bytes) (r : Head) (hw : WellFormed target r)
    {host sent : Bytes} (h : parseRequest utf8 target r = .ok (host, sent)) :
    ∃ m p, r.method = some m ∧ r.path = some p ∧
      readReq sent = some
        { method := m, target := target p, version := str "HTTP/1.1",
          headers := r.headers.filterMap (treat utf8 host), body := r.body } := by
  unfold parseRequest at h
  split at h
  · cases h
  next m hm =>
  split at h
  case isFalse => cases h
  next hmm =>
  split at h
  · cases h
  next ho hho =>
  split at h
  · cases h
  next p hp =>
  cases h
  refine ⟨m, p, hm, hp, ?_⟩
  obtain ⟨hp1, hp2⟩ := hw.path p hp
  have m32 : 32 ∉ m ∧ 13 ∉ m := by rcases hmm with rfl | rfl <;> decide
  have hs32 : str " " = [32] := by decide
  have hv : str "HTTP/1.1\r\n" = str "HTTP/1.1" ++ [13, 10] := by decide
  have e : m ++ str " " ++ target p ++ str " " ++ str "HTTP/1.1\r\n" ++
      r.headers.flatMap (sanitizeHeader utf8 host) ++ str "\r\n" ++ r.body =
      (m ++ 32 :: (target p ++ 32 :: str "HTTP/1.1")) ++ 13 :: 10 ::
        (r.headers.flatMap (sanitizeHeader utf8 host) ++ str "\r\n" ++ r.body) := by
    simp [hs32, hv]
  unfold readReq
  rw [e, takeLine_append _ _ (by
    simp only [List.mem_append, List.mem_cons, not_or]
    exact ⟨m32.2, by decide, hp2, by decide, by decide⟩)]
  dsimp only
  rw [takeTo_append 32 _ _ m32.1]
  dsimp only
  rw [takeTo_append 32 _ _ hp1]
  dsimp only
  rw [readHeaders_append utf8 host r.body r.headers (fun x hx => ⟨hw.name x hx, hw.value x hx⟩)]
  have := sanitized_length utf8 host r.headers
  simp only [List.length_append, List.length_cons]
  omega

/-! ## C201: what the destination learns about the browser -/

/-- A header nothing of which is to reach the destination. -/
abbrev Hidden (utf8 : Bytes → Bool) (host : Bytes) (h : Header) : Prop :=
  (Begins "accept" h ∧ ¬ Named "accept-encoding" h) ∨ Begins "x-requested-with" h ∨ Begins "via" h ∨
  Begins "from" h ∨ Begins "forwarded" h ∨ Begins "dnt" h ∨ Begins "x-forwarded" h ∨ Begins "proxy-" h ∨
  (Named "referer" h ∧ (utf8 h.2 = false ∨ contains h.2 host = false))

/-- Headers that differ only in what the destination is not to learn: hidden headers are there or not
and have any value, the browser calls itself anything, connections are to be kept or not. -/
inductive Alike (utf8 : Bytes → Bool) (host : Bytes) : List Header → List Header → Prop
  | nil : Alike utf8 host [] []
  | same (h) {a b} : Alike utf8 host a b → Alike utf8 host (h :: a) (h :: b)
  | left (h) {a b} : Hidden utf8 host h → Alike utf8 host a b → Alike utf8 host (h :: a) b
  | right (h) {a b} : Hidden utf8 host h → Alike utf8 host a b → Alike utf8 host a (h :: b)
  | agent (h h') {a b} : Named "user-agent" h → Named "user-agent" h' → Alike utf8 host a b →
      Alike utf8 host (h :: a) (h' :: b)
  | connection (h h') {a b} : Named "connection" h → Named "connection" h' → lower h.2 ≠ str "upgrade" →
      lower h'.2 ≠ str "upgrade" → Alike utf8 host a b → Alike utf8 host (h :: a) (h' :: b)

theorem treat_hidden (utf8 : Bytes → Bool) (host : Bytes) {h : Header} (hh : Hidden utf8 host h) :
    treat utf8 host h = none ∧ ¬ Named "host" h := by
  have key : ∀ n : Bytes, ¬ (str "accept" <+: n) → ¬ (str "x-requested-with" <+: n) → ¬ (str "via" <+: n) →
      ¬ (str "from" <+: n) → ¬ (str "forwarded" <+: n) → ¬ (str "dnt" <+: n) → ¬ (str "x-forwarded" <+: n) →
      ¬ (str "proxy-" <+: n) → str "referer" ≠ n → lower h.1 ≠ n := by
    intro n a b c d e f g i j hn
    unfold Hidden Begins Named at hh
    rw [hn] at hh
    rcases hh with ⟨x, -⟩ | x | x | x | x | x | x | x | ⟨x, -⟩ <;> simp_all
  refine ⟨?_, ?_⟩
  · unfold treat
    rw [if_neg (key _ (by decide) (by decide) (by decide) (by decide) (by decide) (by decide) (by decide)
      (by decide) (by decide))]
    have h2 : ¬ Named "accept-encoding" h := by
      intro hn
      have hne : ∀ p : Bytes, (p <+: lower h.1) → p <+: str "accept-encoding" := by
        intro p hp; rwa [← show lower h.1 = str "accept-encoding" from hn]
      unfold Hidden Begins at hh
      rcases hh with ⟨-, x⟩ | x | x | x | x | x | x | x | ⟨x, -⟩
      · exact x hn
      all_goals first
        | exact absurd (hne _ x) (by decide)
        | (unfold Named at x hn; rw [hn] at x; exact absurd x (by decide))
    rw [if_neg h2, if_neg (key _ (by decide) (by decide) (by decide) (by decide) (by decide) (by decide) (by decide)
      (by decide) (by decide))]
    by_cases h3 : Named "referer" h
    · rw [if_pos h3]
      have hne : ∀ p : Bytes, (p <+: lower h.1) → p <+: str "referer" := by
        intro p hp; rwa [← show lower h.1 = str "referer" from h3]
      unfold Hidden Begins at hh
      rcases hh with ⟨x, -⟩ | x | x | x | x | x | x | x | ⟨-, x⟩
      all_goals first
        | exact absurd (hne _ x) (by decide)
        | rcases x with x | x <;> simp [x]
    · rw [if_neg h3, if_pos]
      unfold Hidden at hh
      rcases hh with ⟨x, -⟩ | x | x | x | x | x | x | x | ⟨x, -⟩
      · exact .inl x
      · exact .inr (.inr (.inl x))
      · exact .inr (.inr (.inr (.inl x)))
      · exact .inr (.inr (.inr (.inr (.inl x))))
      · exact .inr (.inr (.inr (.inr (.inr (.inl x)))))
      · exact .inr (.inr (.inr (.inr (.inr (.inr (.inl x))))))
      · exact .inr (.inr (.inr (.inr (.inr (.inr (.inr (.inl x)))))))
      · exact .inr (.inr (.inr (.inr (.inr (.inr (.inr (.inr x)))))))
      · exact absurd x h3
  · exact key _ (by decide) (by decide) (by decide) (by decide) (by decide) (by decide) (by decide)
      (by decide) (by decide)

theorem alike_treat {utf8 : Bytes → Bool} {host : Bytes} {a b : List Header} (h : Alike utf8 host a b) :
    a.flatMap (sanitizeHeader utf8 host) = b.flatMap (sanitizeHeader utf8 host) ∧
    (a.find? fun h => lower h.1 = str "host") = b.find? fun h => lower h.1 = str "host" := by
  induction h with
  | nil => exact ⟨rfl, rfl⟩
  | same h _ ih => simp only [List.flatMap_cons, List.find?_cons, ih.1, ih.2]; exact ⟨trivial, trivial⟩
  | left h hh _ ih =>
    obtain ⟨h1, h2⟩ := treat_hidden utf8 host hh
    rw [List.flatMap_cons, sanitize_eq, h1, List.find?_cons, decide_eq_false h2]
    exact ih
  | right h hh _ ih =>
    obtain ⟨h1, h2⟩ := treat_hidden utf8 host hh
    rw [List.flatMap_cons (x := h), sanitize_eq, h1, List.find?_cons, decide_eq_false h2]
    exact ih
  | agent h h' ha hb _ ih =>
    unfold Named at ha hb
    have e : ∀ x : Header, lower x.1 = str "user-agent" →
        sanitizeHeader utf8 host x = str "User-Agent: MYOB/6.66 (AN/ON)\r\n" := by
      intro x hx; unfold sanitizeHeader; rw [if_pos hx]
    rw [List.flatMap_cons, List.flatMap_cons, e h ha, e h' hb, ih.1, List.find?_cons, List.find?_cons, ha, hb, ih.2]
    exact ⟨rfl, rfl⟩
  | connection h h' ha hb hx hy _ ih =>
    have e : ∀ x : Header, Named "connection" x → lower x.2 ≠ str "upgrade" →
        treat utf8 host x = some (str "Connection", str "close") := by
      intro x hx hv
      unfold treat
      rw [if_neg (by unfold Named at *; rw [hx]; decide), if_neg (by unfold Named at *; rw [hx]; decide), if_pos hx,
        if_neg fun c => hv c.2]
    rw [List.flatMap_cons, List.flatMap_cons, sanitize_eq, sanitize_eq, e h ha hx, e h' hb hy, ih.1,
      List.find?_cons, List.find?_cons]
    unfold Named at ha hb
    rw [ha, hb, ih.2]
    exact ⟨rfl, rfl⟩

/-- **C201**, in part: two browsers whose requests differ only in what they call themselves, in the
`Accept` headers other than the encodings, in `X-Requested-With`, `Via`, `From`, `Forwarded`, `DNT`,
`X-Forwarded` and `Proxy-` headers, in whether they keep connections, and in `Referer` headers without
the name of the site, cannot be told apart: the same bytes are sent to the same destination. -/
theorem C201_same_partial (utf8 : Bytes → Bool) (target : Bytes → Bytes) (r r' : Head) {host sent : Bytes}
    (h : parseRequest utf8 target r = .ok (host, sent))
    (hm : r'.method = r.method) (hp : r'.path = r.path) (hb : r'.body = r.body)
    (ha : Alike utf8 host r.headers r'.headers) :
    parseRequest utf8 target r' = .ok (host, sent) := by
  obtain ⟨h1, h2⟩ := alike_treat ha
  have hho : hostOf utf8 r'.headers = hostOf utf8 r.headers := by unfold hostOf; rw [h2]
  unfold parseRequest at h ⊢
  rw [hm, hp, hb, hho]
  revert h
  cases r.method with
  | none => exact id
  | some m =>
    dsimp only
    split
    · cases ho : hostOf utf8 r.headers with
      | error e => exact id
      | ok hst =>
        dsimp only
        cases r.path with
        | none => exact id
        | some p =>
          dsimp only
          intro h
          have e : hst = host := by injection h with h; injection h
          subst e
          rw [← h1]
          exact h
    · exact id

theorem treat_other {utf8 : Bytes → Bool} {host : Bytes} {h : Header}
    (hn : ∀ p ∈ ["user-agent", "accept", "connection", "referer", "x-requested-with", "via", "from", "forwarded",
      "dnt", "x-forwarded", "proxy-"], ¬ Begins p h) : treat utf8 host h = some h := by
  have hne : ∀ p : String, ¬ Begins p h → ¬ Named p h := by
    intro p hp hq; exact hp (by unfold Begins; rw [hq]; exact List.prefix_rfl)
  unfold treat
  have ae : ¬ Named "accept-encoding" h := by
    intro hq
    refine hn "accept" (by simp) ?_
    unfold Begins; unfold Named at hq; rw [hq]; decide
  rw [if_neg (hne _ (hn _ (by simp))), if_neg ae, if_neg (hne _ (hn _ (by simp))), if_neg (hne _ (hn _ (by simp))),
    if_neg]
  rintro (x | x | x | x | x | x | x | x | x) <;> exact hn _ (by simp) x

/-- **C201**, violated: every other header of the browser reaches the destination as it is, whatever
it says about the browser or the user: `Sec-CH-UA`, `X-Real-IP`, `Client-IP`, `Origin`, ... -/
theorem C201_other_violated (utf8 : Bytes → Bool) (target : Bytes → Bytes) (r : Head)
    (hw : WellFormed target r) {host sent : Bytes} (h : parseRequest utf8 target r = .ok (host, sent))
    (x : Header) (hx : x ∈ r.headers)
    (hn : ∀ p ∈ ["user-agent", "accept", "connection", "referer", "x-requested-with", "via", "from", "forwarded",
      "dnt", "x-forwarded", "proxy-"], ¬ Begins p x) :
    ∃ q, readReq sent = some q ∧ x ∈ q.headers := by
  obtain ⟨m, p, -, -, e⟩ := C200_sent utf8 target r hw h
  exact ⟨_, e, List.mem_filterMap.2 ⟨x, hx, treat_other hn⟩⟩

theorem contains_iff (v h : Bytes) : contains v h = true ↔ h <:+: v := by
  induction v with
  | nil =>
    rw [contains, prefix_iff]
    constructor
    · exact fun x => x.isInfix
    · rintro ⟨a, b, e⟩
      simp only [List.append_eq_nil_iff] at e
      rw [e.1.2]; exact List.nil_prefix
  | cons b v ih =>
    rw [contains, Bool.or_eq_true, prefix_iff, ih, List.infix_cons_iff]

/-- **C201**, violated: the page a user comes from is told to the destination whenever its address has
the name of the destination in it anywhere, whatever site it is on. -/
theorem C201_referer_violated (utf8 : Bytes → Bool) (target : Bytes → Bytes) (r : Head)
    (hw : WellFormed target r) {host sent : Bytes} (h : parseRequest utf8 target r = .ok (host, sent))
    (x : Header) (hx : x ∈ r.headers) (hr : Named "referer" x) (hu : utf8 x.2 = true) (hc : host <:+: x.2) :
    ∃ q, readReq sent = some q ∧ (str "Referer", x.2) ∈ q.headers := by
  obtain ⟨m, p, -, -, e⟩ := C200_sent utf8 target r hw h
  refine ⟨_, e, List.mem_filterMap.2 ⟨x, hx, ?_⟩⟩
  unfold treat
  rw [if_neg (by unfold Named at *; rw [hr]; decide), if_neg (by unfold Named at *; rw [hr]; decide),
    if_neg (by unfold Named at *; rw [hr]; decide), if_pos hr, if_pos ⟨hu, (contains_iff _ _).2 hc⟩]

/-- **C201**, violated: a program that does not say what it is stays apart from those that do: it is
given no `User-Agent`. -/
theorem C201_agent_violated (utf8 : Bytes → Bool) (target : Bytes → Bytes) (r : Head)
    (hw : WellFormed target r) {host sent : Bytes} (h : parseRequest utf8 target r = .ok (host, sent))
    (hn : ∀ x ∈ r.headers, ¬ Named "user-agent" x) :
    ∃ q, readReq sent = some q ∧ ∀ x ∈ q.headers, ¬ Named "user-agent" x := by
  obtain ⟨m, p, -, -, e⟩ := C200_sent utf8 target r hw h
  refine ⟨_, e, fun x hx => ?_⟩
  obtain ⟨y, hy, ht⟩ := List.mem_filterMap.1 hx
  unfold treat at ht
  rw [if_neg (hn y hy)] at ht
  split at ht
  · cases ht; show ¬ lower _ = _; dsimp only; decide
  split at ht
  · cases ht; show ¬ lower _ = _; dsimp only; decide
  split at ht
  · split at ht
    · cases ht; show ¬ lower _ = _; dsimp only; decide
    · cases ht
  split at ht
  · cases ht
  · injection ht with ht; rw [← ht]; exact hn y hy

/-! ## C202: which requests are served -/

/-- The text `x` without a leading `www.`. -/
def Site (x site : Bytes) : Prop := x = str "www." ++ site ∨ (x = site ∧ ¬ str "www." <+: x)

theorem site_iff (x site : Bytes) : stripWww x = site ↔ Site x site := by
  unfold stripWww Site
  by_cases h : (str "www.").isPrefixOf x = true
  · rw [if_pos h]
    obtain ⟨t, ht⟩ := (prefix_iff _ _).1 h
    subst ht
    have : (str "www." ++ t).drop 4 = t := by
      rw [List.drop_append_of_le_length (by decide)]; rw [show List.drop 4 (str "www.") = [] by decide]; rfl
    rw [this]
    constructor
    · rintro rfl; exact .inl rfl
    · rintro (h' | ⟨-, h'⟩)
      · exact List.append_cancel_left h'
      · exact absurd (List.prefix_append _ _) h'
  · rw [if_neg h]
    rw [prefix_iff] at h
    constructor
    · rintro rfl; exact .inr ⟨rfl, h⟩
    · rintro (h' | ⟨h', -⟩)
      · exact absurd (h' ▸ List.prefix_append _ _) h
      · exact h'

/-- **C202**: a request is sent exactly if it is a `GET` or `POST` with a target whose first `Host`
header is readable and ends in `.i2p`, and it goes to this host without `www.`. -/
theorem C202_served (utf8 : Bytes → Bool) (target : Bytes → Bytes) (r : Head) (host : Bytes) :
    (∃ sent, parseRequest utf8 target r = .ok (host, sent)) ↔
      (r.method = some (str "GET") ∨ r.method = some (str "POST")) ∧ r.path ≠ none ∧
      ∃ pre h post, r.headers = pre ++ h :: post ∧ (∀ x ∈ pre, ¬ Named "host" x) ∧ Named "host" h ∧
        utf8 h.2 = true ∧ Site h.2 host ∧ str ".i2p" <:+ host := by
  have hh : hostOf utf8 r.headers = .ok host ↔ ∃ pre h post, r.headers = pre ++ h :: post ∧
      (∀ x ∈ pre, ¬ Named "host" x) ∧ Named "host" h ∧ utf8 h.2 = true ∧ Site h.2 host ∧ str ".i2p" <:+ host := by
    unfold hostOf
    constructor
    · intro h
      split at h
      · cases h
      next y hy =>
      split at h
      case isFalse => cases h
      next hu =>
      split at h
      case isFalse => cases h
      next hs =>
      obtain ⟨hy1, pre, post, e, hpre⟩ := List.find?_eq_some_iff_append.1 hy
      injection h with h
      refine ⟨pre, y, post, e, fun x hx => by simpa using hpre x hx, by simpa using hy1, hu, (site_iff _ _).1 h, ?_⟩
      rw [← h]; exact List.isSuffixOf_iff_suffix.1 hs
    · rintro ⟨pre, y, post, e, hpre, hy, hu, hs, hi⟩
      have : (r.headers.find? fun h => lower h.1 = str "host") = some y :=
        List.find?_eq_some_iff_append.2 ⟨by simpa using hy, pre, post, e, fun x hx => by simpa using hpre x hx⟩
      rw [this]
      dsimp only
      rw [if_pos hu, (site_iff _ _).2 hs, if_pos (List.isSuffixOf_iff_suffix.2 hi)]
  rw [← hh]
  unfold parseRequest
  cases r.method with
  | none => simp
  | some m =>
    dsimp only
    simp only [Option.some.injEq]
    by_cases hm : m = str "GET" ∨ m = str "POST"
    · rw [if_pos hm]
      cases hostOf utf8 r.headers with
      | error e => simp
      | ok hst =>
        cases r.path with
        | none => simp
        | some p => simp [hm]
    · rw [if_neg hm]; simp [hm]

/-- **C202**, violated: the `Host` header of a request with a port, or with the name in other letters,
is refused although it names an `.i2p` site. -/
theorem C202_port_violated (utf8 : Bytes → Bool) (target : Bytes → Bytes) (r : Head) (pre post : List Header)
    (h : Header) (name port : Bytes) (he : r.headers = pre ++ h :: post) (hpre : ∀ x ∈ pre, ¬ Named "host" x)
    (hh : Named "host" h) (hv : h.2 = name ++ str ".i2p:" ++ port) (hd : ∀ b ∈ port, 48 ≤ b ∧ b ≤ 57) :
    ∃ e, parseRequest utf8 target r = .error e := by
  cases hp : parseRequest utf8 target r with
  | error e => exact ⟨e, rfl⟩
  | ok x =>
    exfalso
    obtain ⟨-, -, pre', h', post', e', hpre', hh', -, hs, hi⟩ :=
      (C202_served utf8 target r x.1).1 ⟨x.2, hp⟩
    have : h' = h := by
      rw [he] at e'
      have f1 : (pre ++ h :: post).find? (fun h => lower h.1 = str "host") = some h :=
        List.find?_eq_some_iff_append.2 ⟨by simpa using hh, pre, post, rfl, fun x hx => by simpa using hpre x hx⟩
      have f2 : (pre' ++ h' :: post').find? (fun h => lower h.1 = str "host") = some h' :=
        List.find?_eq_some_iff_append.2 ⟨by simpa using hh', pre', post', rfl, fun x hx => by simpa using hpre' x hx⟩
      rw [e', f2] at f1
      injection f1
    subst this
    have hsuf : str ".i2p" <:+ h'.2 := by
      rcases hs with h1 | ⟨h1, -⟩
      · rw [h1]; exact hi.trans (List.suffix_append _ _)
      · rw [h1]; exact hi
    have hlast : h'.2.getLast? = some 112 := by
      obtain ⟨t, ht⟩ := hsuf
      rw [← ht, show str ".i2p" = [46, 105, 50] ++ [112] by decide, ← List.append_assoc, List.getLast?_concat]
    rw [hv, show str ".i2p:" = [46, 105, 50, 112] ++ [58] by decide] at hlast
    rcases List.eq_nil_or_concat port with rfl | ⟨q, b, rfl⟩
    · rw [List.append_nil, ← List.append_assoc, List.getLast?_concat] at hlast
      exact absurd hlast (by decide)
    · rw [List.concat_eq_append, ← List.append_assoc, List.getLast?_concat] at hlast
      injection hlast with hlast
      have := hd b (by simp)
      rw [hlast] at this
      exact absurd this (by decide)

/-! ## C203: the whole request is sent -/

/-- The head of the browser's data ends after `L` bytes, and is found when they are there. -/
def HeadAt (parse : Bytes → Parse) (data : Bytes) (L : Nat) (r : Head) : Prop :=
  0 < L ∧ L ≤ data.length ∧ (∀ n < L, parse (data.take n) = .partial_) ∧
  ∀ n, L ≤ n → parse (data.take n) = .complete { r with body := (data.take n).drop L }

theorem readRequest_spec (parse : Bytes → Parse) {size : Nat} {all : Bytes} {L : Nat} {r0 : Head}
    (hp : HeadAt parse all L r0) : ∀ (ns : List Nat) (k : Nat) {r : Head} {rest : Bytes},
    k ≤ size → readRequest parse size (all.take k) (all.drop k) ns = .ok (r, rest) →
    ∃ n, L ≤ n ∧ n ≤ size ∧ n ≤ all.length ∧ r = { r0 with body := (all.take n).drop L } ∧ rest = all.drop n := by
  intro ns
  induction ns with
  | nil => intro k r rest _ h; cases h
  | cons n ns ih =>
    intro k r rest hk h
    rw [readRequest] at h
    split at h
    · cases h
    next hg =>
    have hkl : k ≤ all.length := by
      simp only [List.length_take, List.length_drop] at hg; omega
    have htk : (all.take k).length = k := by simp; omega
    rw [htk] at h
    have happ : all.take k ++ (all.drop k).take (min n (size - k)) = all.take (k + min n (size - k)) := by
      rw [List.take_add]
    have hgl : ((all.drop k).take (min n (size - k))).length = min (k + min n (size - k)) all.length - k := by
      simp; omega
    have hdrop : (all.drop k).drop ((all.drop k).take (min n (size - k))).length =
        all.drop (min (k + min n (size - k)) all.length) := by
      rw [hgl, List.drop_drop]; congr 1; omega
    have htake : all.take (k + min n (size - k)) = all.take (min (k + min n (size - k)) all.length) := by
      rw [List.take_eq_take_iff]; omega
    rw [happ, htake, hdrop] at h
    generalize hj : min (k + min n (size - k)) all.length = j at h
    by_cases hjL : j < L
    · rw [hp.2.2.1 j hjL] at h
      exact ih j (by omega) h
    · rw [hp.2.2.2 j (by omega)] at h
      injection h with h
      injection h with h1 h2
      exact ⟨j, by omega, by omega, by omega, h1.symm, h2.symm⟩

theorem readRequest_spec0 (parse : Bytes → Parse) {all : Bytes} {L : Nat} {r0 : Head}
    (hp : HeadAt parse all L r0) (ns : List Nat) {r : Head} {rest : Bytes}
    (h : readRequest parse bufferSize [] all ns = .ok (r, rest)) :
    ∃ n, L ≤ n ∧ n ≤ bufferSize ∧ n ≤ all.length ∧ r = { r0 with body := (all.take n).drop L } ∧ rest = all.drop n :=
  readRequest_spec parse hp ns 0 (Nat.zero_le _) (by simpa using h)

theorem wf_body {target : Bytes → Bytes} {r : Head} (hw : WellFormed target r) (b : Bytes) :
    WellFormed target { r with body := b } := ⟨hw.name, hw.value, hw.path⟩

theorem parseRequest_body (utf8 : Bytes → Bool) (target : Bytes → Bytes) {r : Head} {host sent : Bytes}
    (h : parseRequest utf8 target r = .ok (host, sent)) :
    ∃ pre, (∀ b, ∃ e, parseRequest utf8 target { r with body := b } = .ok (host, e) ∧ e = pre ++ b) ∧ sent = pre ++ r.body := by
  unfold parseRequest at h ⊢
  split at h
  · cases h
  next m hm =>
  split at h
  case isFalse => cases h
  next hmm =>
  split at h
  · cases h
  next ho hho =>
  split at h
  · cases h
  next p hp =>
  cases h
  refine ⟨_, fun b => ⟨_, ?_, rfl⟩, rfl⟩
  simp only [hm, hho, hp, if_pos hmm]

/-- **C203**, in part: whatever the sizes of the reads, the body the destination is sent is a beginning
of the body the browser sends. -/
theorem C203_beginning_partial (utf8 : Bytes → Bool) (target : Bytes → Bytes) (parse : Bytes → Parse)
    (data : Bytes) (L : Nat) (r : Head) (hp : HeadAt parse data L r) (hw : WellFormed target r) (ns : List Nat)
    {host sent : Bytes} (h : serve utf8 target parse data ns = .ok (host, sent)) :
    ∃ q, readReq sent = some q ∧ q.body <+: data.drop L := by
  unfold serve at h
  split at h
  · cases h
  next r' rest he =>
  obtain ⟨n, h1, h2, h3, rfl, -⟩ := readRequest_spec0 parse hp ns he
  obtain ⟨m, p, -, -, e⟩ := C200_sent utf8 target _ (wf_body hw _) h
  refine ⟨_, e, ?_⟩
  show (data.take n).drop L <+: data.drop L
  rw [List.drop_take]
  exact List.take_prefix _ _

/-- **C203**, in part: a request that is read at once, with a body that fits, is sent whole. -/
theorem C203_whole_partial (utf8 : Bytes → Bool) (target : Bytes → Bytes) (parse : Bytes → Parse)
    (data : Bytes) (L : Nat) (r : Head) (hp : HeadAt parse data L r) (hw : WellFormed target r)
    (hfit : data.length ≤ bufferSize) (n : Nat) (hn : data.length ≤ n) (ns : List Nat)
    {host sent : Bytes} (h : serve utf8 target parse data (n :: ns) = .ok (host, sent)) :
    ∃ q, readReq sent = some q ∧ q.body = data.drop L := by
  have ht : data.take (min n (bufferSize - 0)) = data := List.take_of_length_le (by omega)
  have e : readRequest parse bufferSize [] data (n :: ns) = .ok ({ r with body := data.drop L }, []) := by
    rw [readRequest]
    simp only [List.length_nil, ht, List.nil_append]
    rw [if_neg (by have := hp.1; have := hp.2.1; omega)]
    have := hp.2.2.2 data.length hp.2.1
    rw [List.take_length] at this
    rw [this]
    simp
  unfold serve at h
  rw [e] at h
  obtain ⟨m, p, -, -, e⟩ := C200_sent utf8 target _ (wf_body hw _) h
  exact ⟨_, e, rfl⟩

/-- **C203**, violated: nothing after the first 8192 bytes is ever sent, however the reads fall. -/
theorem C203_long_violated (utf8 : Bytes → Bool) (target : Bytes → Bytes) (parse : Bytes → Parse)
    (data : Bytes) (L : Nat) (r : Head) (hp : HeadAt parse data L r) (hw : WellFormed target r)
    (hlong : 8192 < data.length) (ns : List Nat)
    {host sent : Bytes} (h : serve utf8 target parse data ns = .ok (host, sent)) :
    ∃ q, readReq sent = some q ∧ q.body.length < (data.drop L).length := by
  unfold serve at h
  split at h
  · cases h
  next r' rest he =>
  obtain ⟨n, h1, h2, h3, rfl, -⟩ := readRequest_spec0 parse hp ns he
  obtain ⟨m, p, -, -, e⟩ := C200_sent utf8 target _ (wf_body hw _) h
  refine ⟨_, e, ?_⟩
  simp only [List.length_drop, List.length_take]
  have : bufferSize = 8192 := rfl
  omega

/-- **C203**, violated: a request with a body is sent without any of it if the first read ends with the
head. -/
theorem C203_lost_violated (utf8 : Bytes → Bool) (target : Bytes → Bytes) (parse : Bytes → Parse)
    (data : Bytes) (L : Nat) (r : Head) (hp : HeadAt parse data L r) (hw : WellFormed target r)
    (hL : L ≤ 8192) (hb : L < data.length) (ns : List Nat)
    {host sent : Bytes} (hr : parseRequest utf8 target r = .ok (host, sent)) :
    ∃ sent', serve utf8 target parse data (L :: ns) = .ok (host, sent') ∧
      ∃ q, readReq sent' = some q ∧ q.body = [] ∧ data.drop L ≠ [] := by
  have e : readRequest parse bufferSize [] data (L :: ns) = .ok ({ r with body := [] }, data.drop L) := by
    rw [readRequest]
    have hm : min L (bufferSize - 0) = L := by unfold bufferSize; omega
    have hl : (data.take L).length = L := by simp; omega
    simp only [List.length_nil, hm, List.nil_append, hl]
    rw [if_neg (by have := hp.1; omega), hp.2.2.2 L (Nat.le_refl _)]
    have : (data.take L).drop L = [] := by simp
    rw [this]
  obtain ⟨pre, h1, -⟩ := parseRequest_body utf8 target hr
  obtain ⟨s', hs', -⟩ := h1 []
  refine ⟨s', ?_, ?_⟩
  · unfold serve; rw [e]; exact hs'
  · obtain ⟨m, p, -, -, e⟩ := C200_sent utf8 target _ (wf_body hw _) hs'
    refine ⟨_, e, rfl, ?_⟩
    intro h
    have := congrArg List.length h
    simp at this; omega

/-- **C203**, violated: a request whose head has more than 8192 bytes is never sent. -/
theorem C203_head_violated (utf8 : Bytes → Bool) (target : Bytes → Bytes) (parse : Bytes → Parse)
    (data : Bytes) (L : Nat) (r : Head) (hp : HeadAt parse data L r) (hL : 8192 < L) (ns : List Nat) :
    ∃ e, serve utf8 target parse data ns = .error e := by
  unfold serve
  cases he : readRequest parse bufferSize [] data ns with
  | error e => exact ⟨e, rfl⟩
  | ok x =>
    obtain ⟨n, h1, h2, -⟩ := readRequest_spec0 parse hp ns (r := x.1) (rest := x.2) he
    unfold bufferSize at h2
    omega

/-! ## The cases occur -/

def sampleHead : Head :=
  { method := some (str "POST"), path := some (str "/a"), body := str "hello",
    headers := [(str "Host", str "www.host.i2p"), (str "USER-Agent", str "Secret/1.0"), (str "Accept", str "x"),
      (str "Accept-Encoding", str "gzip"), (str "Connection", str "keep-alive"), (str "Proxy-Auth", str "pw"),
      (str "Referer", str "http://private.i2p/?to=host.i2p"), (str "X-Real-IP", str "10.0.0.1"), (str "Cookie", str "a: b")] }

abbrev allUtf8 : Bytes → Bool := fun _ => true

theorem sample_wf : WellFormed id sampleHead :=
  ⟨by decide, by decide, by intro p hp; cases hp; decide⟩

/-- Answers can be compared. -/
instance : DecidableEq (Except Error (Bytes × Bytes))
  | .ok a, .ok b => if h : a = b then .isTrue (by rw [h]) else .isFalse fun e => h (by injection e)
  | .error a, .error b => if h : a = b then .isTrue (by rw [h]) else .isFalse fun e => h (by injection e)
  | .ok _, .error _ => .isFalse fun e => nomatch e
  | .error _, .ok _ => .isFalse fun e => nomatch e

def sampleSent : Bytes := match parseRequest allUtf8 id sampleHead with | .ok x => x.2 | .error _ => []

theorem sample_ok : parseRequest allUtf8 id sampleHead = .ok (str "host.i2p", sampleSent) := by decide +kernel

example : readReq sampleSent = some
  { method := str "POST", target := str "/a", version := str "HTTP/1.1", body := str "hello",
    headers := [(str "Host", str "www.host.i2p"), (str "User-Agent", str "MYOB/6.66 (AN/ON)"),
      (str "Accept-Encoding", str "gzip"), (str "Connection", str "close"),
      (str "Referer", str "http://private.i2p/?to=host.i2p"), (str "X-Real-IP", str "10.0.0.1"), (str "Cookie", str "a: b")] } := by
  decide +kernel
example := C200_sent allUtf8 id sampleHead sample_wf sample_ok
example := C201_other_violated allUtf8 id sampleHead sample_wf sample_ok (str "X-Real-IP", str "10.0.0.1")
  (by decide +kernel) (by decide +kernel)
example := C201_referer_violated allUtf8 id sampleHead sample_wf sample_ok
  (str "Referer", str "http://private.i2p/?to=host.i2p") (by decide +kernel) (by decide +kernel) rfl
  ⟨str "http://private.i2p/?to=", [], by decide +kernel⟩
example : Alike allUtf8 (str "host.i2p") [(str "Host", str "host.i2p"), (str "User-Agent", str "A"), (str "Via", str "x")]
    [(str "DNT", str "1"), (str "Host", str "host.i2p"), (str "user-agent", str "B")] :=
  .right _ (.inr (.inr (.inr (.inr (.inr (.inl (by decide +kernel)))))))
    (.same _ (.agent _ _ (by decide +kernel) (by decide +kernel) (.left _ (.inr (.inr (.inl (by decide +kernel)))) .nil)))
example := C202_port_violated allUtf8 id { sampleHead with headers := [(str "Host", str "host.i2p:80")] } [] []
  (str "Host", str "host.i2p:80") (str "host") (str "80") rfl (by simp) (by decide) (by decide) (by decide)
example : ∃ sent, parseRequest allUtf8 id sampleHead = .ok (str "host.i2p", sent) := ⟨_, sample_ok⟩

/-- A parser that finds the head of a sample request of `4 + 5` bytes. -/
def sampleParse (b : Bytes) : Parse :=
  if b.length < 4 then .partial_ else .complete { sampleHead with body := b.drop 4 }

theorem sample_headAt : HeadAt sampleParse (str "HEADhello") 4 sampleHead := by
  refine ⟨by decide, by decide, ?_, ?_⟩
  · intro n hn
    unfold sampleParse
    rw [if_pos (by simp; omega)]
  · intro n hn
    unfold sampleParse
    rw [if_neg]
    rw [List.length_take, show (str "HEADhello").length = 9 by decide]
    omega

example := C203_lost_violated allUtf8 id sampleParse _ 4 sampleHead sample_headAt sample_wf (by decide) (by decide) []
  sample_ok
example : ∃ host sent q, serve allUtf8 id sampleParse (str "HEADhello") [4] = .ok (host, sent) ∧ readReq sent = some q ∧
    q.body <+: (str "HEADhello").drop 4 := by
  obtain ⟨sent, h, -⟩ := C203_lost_violated allUtf8 id sampleParse _ 4 sampleHead sample_headAt sample_wf (by decide)
    (by decide) [] sample_ok
  obtain ⟨q, h1, h2⟩ := C203_beginning_partial allUtf8 id sampleParse _ 4 sampleHead sample_headAt sample_wf _ h
  exact ⟨_, _, q, h, h1, h2⟩

end Emissary.HttpProxy
