import Verif.Model.HttpAnswer
import Verif.Props.HttpProxy
import Verif.Props.Net
/-!
# C245 and C246: the answers of the HTTP proxy
-/
namespace Emissary.HttpProxy

/-! ## Specification: a response as a browser reads it -/

/-- A response: status line, headers, and a body of exactly the announced length. -/
structure Response where
  status : Bytes
  headers : List Header
  body : Bytes
  deriving DecidableEq

/-- Reading a response to its end: the body has the length that `Content-Length` gives, and nothing follows it. -/
def readResp (s : Bytes) : Option Response :=
  match takeLine s with
  | none => none
  | some (l, rest) =>
    match readHeaders s.length rest with
    | none => none
    | some (hs, body) =>
      match hs.find? fun h => decide (Named "content-length" h) with
      | none => none
      | some h => if Prim.digits h.2 0 = some body.length ∧ h.2 ≠ [] then some { status := l, headers := hs, body } else none

/-- The tags of a document: the texts between `<` and the next `>`. `t` is the tag being read, if any. -/
def tags : (t : Option Bytes) → Bytes → List Bytes
  | _, [] => []
  | none, b :: s => if b = 60 then tags (some []) s else tags none s
  | some t, b :: s => if b = 62 then t :: tags none s else tags (some (t ++ [b])) s

/-- The tags of the error page. -/
def pageTags : List Bytes :=
  ["!DOCTYPE html", "html", "head", "title", "/title", "/head", "body", "h1", "/h1", "p", "/p", "/body", "/html"].map str

/-- A browser that is sent `a` reads a page with this status, and this text in its only paragraph. -/
def Shows (a : Bytes) (status : String) (text : Bytes) : Prop :=
  ∃ r, readResp a = some r ∧ r.status = str "HTTP/1.1 " ++ str status ∧
    (str "Content-Type", str "text/html; charset=UTF-8") ∈ r.headers ∧
    ∃ pre post, r.body = pre ++ str "<p>" ++ text ++ str "</p>" ++ post ∧
      tags none pre = pageTags.take 9 ∧ tags none post = pageTags.drop 11

/-! ## Pages -/

theorem readResp_page (s : Status) (e : Bytes) :
    readResp (page s e) = some
      { status := str "HTTP/1.1 " ++ s.text
        headers := [(str "Content-Type", str "text/html; charset=UTF-8"),
          (str "Content-Length", Net.dec (pageBody s e).length)]
        body := pageBody s e } := by
  obtain ⟨h1, h2, h3, -⟩ := Net.dec_spec (pageBody s e).length
  have hd : (13 : UInt8) ∉ Net.dec (pageBody s e).length := fun hm => by
    have := (h1 _ hm).1; revert this; decide
  generalize hb : pageBody s e = b at *
  have hpage : page s e = (str "HTTP/1.1 " ++ s.text) ++ 13 :: 10 ::
      ((str "Content-Type" ++ 58 :: 32 :: str "text/html; charset=UTF-8") ++ 13 :: 10 ::
        ((str "Content-Length" ++ 58 :: 32 :: Net.dec b.length) ++ 13 :: 10 :: (13 :: 10 :: b))) := by
    unfold page
    rw [hb]
    have e1 : str "Content-Type: text/html; charset=UTF-8" =
      str "Content-Type" ++ 58 :: 32 :: str "text/html; charset=UTF-8" := by decide +kernel
    have e2 : str "Content-Length: " = str "Content-Length" ++ [58, 32] := by decide +kernel
    have e3 : str "\r\n\r\n" = [13, 10, 13, 10] := by decide +kernel
    rw [e1, e2, e3, str_crlf]
    simp
  have hlen : 3 ≤ (page s e).length := by rw [hpage]; simp only [List.length_append, List.length_cons]; omega
  unfold readResp
  obtain ⟨n, hn⟩ : ∃ n, (page s e).length = n + 3 := ⟨(page s e).length - 3, by omega⟩
  rw [hn, hpage, takeLine_append _ _ (by cases s <;> decide +kernel)]
  dsimp only
  have f3 : ∀ n, readHeaders (n + 1) (13 :: 10 :: b) = some ([], b) := by
    intro n; rw [readHeaders]; simp [takeLine]
  have f2 : ∀ n, readHeaders (n + 2) ((str "Content-Length" ++ 58 :: 32 :: Net.dec b.length) ++ 13 :: 10 :: (13 :: 10 :: b)) =
      some ([(str "Content-Length", Net.dec b.length)], b) := by
    intro n
    rw [readHeaders, takeLine_append _ _ (by
      simp only [List.mem_append, List.mem_cons, not_or]
      exact ⟨by decide +kernel, by decide, by decide, hd⟩)]
    have : str "Content-Length" ++ 58 :: 32 :: Net.dec b.length ≠ [] := by simp
    split
    next h => cases h
    next h => simp only [Option.some.injEq, Prod.mk.injEq] at h; exact absurd h.1 this
    next h =>
      simp only [Option.some.injEq, Prod.mk.injEq] at h
      obtain ⟨rfl, rfl⟩ := h
      rw [readHeader_line _ _ (by decide +kernel), f3]
  have f1 : readHeaders (n + 3) ((str "Content-Type" ++ 58 :: 32 :: str "text/html; charset=UTF-8") ++ 13 :: 10 ::
        ((str "Content-Length" ++ 58 :: 32 :: Net.dec b.length) ++ 13 :: 10 :: (13 :: 10 :: b))) =
      some ([(str "Content-Type", str "text/html; charset=UTF-8"), (str "Content-Length", Net.dec b.length)], b) := by
    rw [readHeaders, takeLine_append _ _ (by decide +kernel)]
    have : str "Content-Type" ++ 58 :: 32 :: str "text/html; charset=UTF-8" ≠ [] := by simp
    split
    next h => cases h
    next h => simp only [Option.some.injEq, Prod.mk.injEq] at h; exact absurd h.1 this
    next h =>
      simp only [Option.some.injEq, Prod.mk.injEq] at h
      obtain ⟨rfl, rfl⟩ := h
      rw [readHeader_line _ _ (by decide +kernel), f2]
  rw [f1]
  dsimp only
  rw [List.find?_cons_of_neg (by decide +kernel), List.find?_cons_of_pos (by
    simp only [decide_eq_true_eq]; show lower (str "Content-Length") = _; decide +kernel)]
  dsimp only
  rw [if_pos ⟨h3, h2⟩]

theorem shows_page (s : Status) (e : Bytes) (t : String) (ht : s.text = str t) : Shows (page s e) t e := by
  refine ⟨_, readResp_page s e, by rw [ht], by simp, ?_⟩
  refine ⟨str "\n            <!DOCTYPE html>\n            <html>\n            <head>\n                <title>" ++ s.text ++
    str "</title>\n            </head>\n            <body>\n                <h1>" ++ s.text ++ str "</h1>\n                ",
    str "\n            </body>\n            </html>\n        ", ?_, by cases s <;> decide +kernel, by decide +kernel⟩
  unfold pageBody
  have e1 : str "</h1>\n                <p>" = str "</h1>\n                " ++ str "<p>" := by decide +kernel
  have e2 : str "</p>\n            </body>\n            </html>\n        " =
    str "</p>" ++ str "\n            </body>\n            </html>\n        " := by decide +kernel
  rw [e1, e2]
  simp

/-! ## C245: every request is answered -/

/-- **C245**, in part: a browser gets the reply of the destination as it is, and otherwise a complete page: 400 with the
reason if the request is not understood, 500 with the host if the destination cannot be reached. Missing: requests that are
not read to their end in time, and connections that break. -/
theorem C245_answered_partial (utf8 : Bytes → Bool) (target : Bytes → Bytes) (parse : Bytes → Parse)
    (reach : Bytes → Bytes → Far) (data : Bytes) (ns : List Nat) :
    (∀ host sent b, serve utf8 target parse data ns = .ok (host, sent) → reach host sent = .replied b →
      answer utf8 target parse reach data ns = b) ∧
    (∀ host sent, serve utf8 target parse data ns = .ok (host, sent) → reach host sent = .refused →
      Shows (answer utf8 target parse reach data ns) "500 Internal Server Error"
        (str "Failed to establish connection to " ++ host)) ∧
    (serve utf8 target parse data ns = .error .invalidHost →
      Shows (answer utf8 target parse reach data ns) "400 Bad Request" (str "Only .i2p and .b32.i2p hosts are supported")) ∧
    (∀ e, serve utf8 target parse data ns = .error e → e ≠ .io → e ≠ .invalidHost →
      Shows (answer utf8 target parse reach data ns) "400 Bad Request" (str "Malformed request")) := by
  refine ⟨fun host sent b h hr => ?_, fun host sent h hr => ?_, fun h => ?_, fun e h h1 h2 => ?_⟩
  · simp only [answer, h, hr]
  · simp only [answer, h, hr]; exact shows_page _ _ _ rfl
  · simp only [answer, h, refusal]; exact shows_page _ _ _ rfl
  · simp only [answer, h]
    cases e <;> first | exact absurd rfl h1 | exact absurd rfl h2 | exact shows_page _ _ _ rfl

/-- A request as `httparse` gives it. -/
def askFor (host : String) : Head :=
  { method := some (str "GET"), path := some (str "/"), headers := [(str "Host", str host)], body := [] }

/-- A parser that takes everything for one request. -/
def asksFor (host : String) : Bytes → Parse := fun _ => .complete (askFor host)

example : answer (fun _ => true) id (asksFor "www.a.i2p") (fun _ _ => .replied [1, 2]) [0] [1] = [1, 2] ∧
    answer (fun _ => true) id (asksFor "www.a.i2p") (fun _ _ => .refused) [0] [1] =
      page .internalServerError (str "Failed to establish connection to a.i2p") ∧
    answer (fun _ => true) id (asksFor "a.com") (fun _ _ => .refused) [0] [1] =
      page .badRequest (str "Only .i2p and .b32.i2p hosts are supported") ∧
    answer (fun _ => true) id (fun _ => .error) (fun _ _ => .refused) [0] [1] =
      page .badRequest (str "Malformed request") := by decide +kernel

theorem silent (parse : Bytes → Parse) (size : Nat) (ns : List Nat) : ∀ buffer data : Bytes,
    (∀ p, p <+: buffer ++ data → p.length ≤ size → parse p = .partial_) → buffer.length ≤ size →
    readRequest parse size buffer data ns = .error .io := by
  induction ns with
  | nil => intro _ _ _ _; rfl
  | cons n ns ih =>
    intro buffer data h hb
    have hle : (data.take (min n (size - buffer.length))).length ≤ size - buffer.length := by
      rw [List.length_take]; omega
    unfold readRequest
    dsimp only
    split
    · rfl
    · rw [h _ (by
        conv => rhs; rw [← List.take_append_drop (min n (size - buffer.length)) data, ← List.append_assoc]
        exact List.prefix_append _ _) (by rw [List.length_append]; omega)]
      refine ih _ _ ?_ (by rw [List.length_append]; omega)
      intro p hp hl
      refine h p ?_ hl
      have : (data.take (min n (size - buffer.length))) ++ data.drop (data.take (min n (size - buffer.length))).length = data := by
        rw [List.length_take]
        generalize min n (size - buffer.length) = k
        by_cases hc : k ≤ data.length
        · rw [Nat.min_eq_left hc, List.take_append_drop]
        · rw [Nat.min_eq_right (by omega), List.drop_length, List.append_nil, List.take_of_length_le (by omega)]
      rwa [List.append_assoc, this] at hp

/-- **C245**, violated: a request whose head does not fit the buffer of 8192 bytes is never answered, however it is sent: the
connection is closed without a word. So is every request that takes too long. -/
theorem C245_silent_violated (utf8 : Bytes → Bool) (target : Bytes → Bytes) (parse : Bytes → Parse)
    (reach : Bytes → Bytes → Far) (data : Bytes)
    (h : ∀ p, p <+: data → p.length ≤ 8192 → parse p = .partial_) (ns : List Nat) :
    answer utf8 target parse reach data ns = [] := by
  have := silent parse bufferSize ns [] data (by simpa [bufferSize] using h) (by simp)
  simp [answer, serve, this, refusal]

example : ∀ p, p <+: List.replicate 9000 (1 : UInt8) → p.length ≤ 8192 →
    (fun p : Bytes => if p.length ≤ 8500 then Parse.partial_ else .error) p = .partial_ := by
  intro p _ h; dsimp only; rw [if_pos (by omega)]

/-- **C245**, violated: if the connection to the destination breaks before the request is written, the browser is told nothing. -/
theorem C245_broken_violated (utf8 : Bytes → Bool) (target : Bytes → Bytes) (parse : Bytes → Parse)
    (reach : Bytes → Bytes → Far) (data : Bytes) (ns : List Nat) (host sent : Bytes)
    (h : serve utf8 target parse data ns = .ok (host, sent)) (hr : reach host sent = .broken) :
    answer utf8 target parse reach data ns = [] := by
  simp [answer, h, hr]

example : ∃ sent, serve (fun _ => true) id (asksFor "a.i2p") [0] [1] = .ok (str "a.i2p", sent) := ⟨_, rfl⟩

/-! ## C246: what a request says is shown as text -/

theorem tags_none (a b : Bytes) (h : 60 ∉ a) : tags none (a ++ b) = tags none b := by
  induction a with
  | nil => rfl
  | cons x a ih =>
    simp only [List.mem_cons, not_or] at h
    rw [List.cons_append, tags, if_neg (Ne.symm h.1), ih h.2]

theorem tags_some (a b t : Bytes) (h : 62 ∉ a) : tags (some t) (a ++ 62 :: b) = (t ++ a) :: tags none b := by
  induction a generalizing t with
  | nil => simp [tags]
  | cons x a ih =>
    simp only [List.mem_cons, not_or] at h
    rw [List.cons_append, tags, if_neg (Ne.symm h.1), ih _ h.2]
    simp

/-- The tag that is being read after `s`. -/
def inTag : (t : Option Bytes) → Bytes → Option Bytes
  | t, [] => t
  | none, b :: s => if b = 60 then inTag (some []) s else inTag none s
  | some t, b :: s => if b = 62 then inTag none s else inTag (some (t ++ [b])) s

theorem tags_append (a w : Bytes) : ∀ t, tags t (a ++ w) = tags t a ++ tags (inTag t a) w := by
  induction a with
  | nil => intro t; cases t <;> simp [tags, inTag]
  | cons x a ih =>
    intro t
    cases t with
    | none => rw [List.cons_append, tags, tags, inTag]; split <;> rw [ih]
    | some t => rw [List.cons_append, tags, tags, inTag]; split <;> rw [ih]; rfl

/-- The body of a page, as its tags are read. -/
theorem tags_body (s : Status) (e : Bytes) :
    tags none (pageBody s e) = pageTags.take 10 ++ tags none (e ++ str "</p>\n            </body>\n            </html>\n        ") := by
  unfold pageBody
  rw [List.append_assoc _ e, tags_append]
  generalize e ++ str "</p>\n            </body>\n            </html>\n        " = w
  congr 1
  · cases s <;> decide +kernel
  · have : inTag none (str "\n            <!DOCTYPE html>\n            <html>\n            <head>\n                <title>" ++ s.text ++
        str "</title>\n            </head>\n            <body>\n                <h1>" ++ s.text ++
        str "</h1>\n                <p>") = none := by cases s <;> decide +kernel
    rw [this]

/-- **C246**, in part: a host without `<` adds no markup to a page: its tags are those of the page itself. Missing: hosts
with `<`. -/
theorem C246_text_partial (utf8 : Bytes → Bool) (target : Bytes → Bytes) (parse : Bytes → Parse)
    (reach : Bytes → Bytes → Far) (data : Bytes) (ns : List Nat) {host sent : Bytes}
    (h : serve utf8 target parse data ns = .ok (host, sent)) (hr : reach host sent = .refused) (hh : 60 ∉ host) :
    ∃ r, readResp (answer utf8 target parse reach data ns) = some r ∧ tags none r.body = pageTags := by
  refine ⟨_, by simp only [answer, h, hr]; exact readResp_page _ _, ?_⟩
  show tags none (pageBody _ _) = _
  rw [tags_body, List.append_assoc, tags_none _ _ (by decide +kernel), tags_none _ _ hh]
  decide +kernel

example : 60 ∉ str "a.i2p" := by decide +kernel

/-- **C246**, violated: whatever markup is put before `.i2p` in the `Host` of a request becomes markup of the page. -/
theorem C246_markup_violated (utf8 : Bytes → Bool) (target : Bytes → Bytes) (parse : Bytes → Parse)
    (reach : Bytes → Bytes → Far) (data : Bytes) (ns : List Nat) (pre tag post : Bytes) {sent : Bytes}
    (h : serve utf8 target parse data ns = .ok (pre ++ str "<" ++ tag ++ str ">" ++ post, sent)) (hp : 60 ∉ pre) (ht : 62 ∉ tag)
    (hr : reach (pre ++ str "<" ++ tag ++ str ">" ++ post) sent = .refused) :
    ∃ r, readResp (answer utf8 target parse reach data ns) = some r ∧ tag ∈ tags none r.body := by
  refine ⟨_, by simp only [answer, h, hr]; exact readResp_page _ _, ?_⟩
  show _ ∈ tags none (pageBody _ _)
  have e1 : str "<" = [60] := by decide
  have e2 : str ">" = [62] := by decide
  rw [tags_body, e1, e2]
  simp only [List.append_assoc]
  rw [tags_none _ _ (by decide +kernel), tags_none _ _ hp]
  refine List.mem_append_right _ ?_
  show _ ∈ tags none (60 :: (tag ++ ([62] ++ _)))
  rw [tags, if_pos rfl]
  show _ ∈ tags (some []) (tag ++ 62 :: _)
  rw [tags_some _ _ _ ht]
  simp

/-- Such a request is served. -/
example : (serve (fun _ => true) id (asksFor "<script src=//b.i2p></script>.i2p") [0] [1]).toOption.map Prod.fst =
    some (str "<script src=//b.i2p></script>.i2p") := by decide +kernel

end Emissary.HttpProxy
