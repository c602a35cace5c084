import Verif.Model.Bytes
/-!
# The HTTP proxy

`emissary-cli/src/proxy/http/mod.rs`: a browser's request is read, its headers are sanitised, and the
new request is sent to the destination named by the `Host` header. What the `httparse` crate finds in
the bytes is given (`Head`); what the `url` crate makes of the request target is the function `target`;
`utf8` is `str::from_utf8(..).is_ok()`.
-/
namespace Emissary.HttpProxy

/-- The bytes of an ASCII literal. Not in the code: a helper of the model. -/
def str (s : String) : Bytes := s.toList.map fun c => UInt8.ofNat c.toNat

/-- `to_lowercase` of an ASCII letter. Header names are ASCII (`httparse` takes no others). For the
value of `Connection`, which may be any UTF-8 text, this agrees as far as equality with `upgrade` goes:
no character outside ASCII has one of its letters as its lower case. -/
def low (b : UInt8) : UInt8 := if 65 ≤ b ∧ b ≤ 90 then b + 32 else b

/-- `str::to_lowercase`. Standard or external library, not in /repo. -/
def lower (s : Bytes) : Bytes := s.map low

/-- `str::contains`. Standard or external library, not in /repo. -/
def contains : (v h : Bytes) → Bool
  | [], h => h.isPrefixOf []
  | b :: v, h => h.isPrefixOf (b :: v) || contains v h

/-- A header: name and value. `httparse::Header`, library. -/
abbrev Header := Bytes × Bytes

/-- A complete request as `httparse` reports it: the method, the target, at most 64 headers, and the
bytes after the head. -/
structure Head where
  method : Option Bytes
  path : Option Bytes
  headers : List Header
  body : Bytes
  deriving DecidableEq

/-- `HttpError`, as far as it is used. emissary-cli/src/proxy/http/error.rs 20. -/
inductive Error
  | methodMissing | methodNotSupported | malformed | invalidHost | invalidPath | io
  deriving DecidableEq

/-- `ILLEGAL` (44-56). -/
def illegal : List Bytes :=
  [str "accept", str "referer", str "x-requested-with", str "via", str "from", str "forwarded",
    str "dnt", str "x-forwarded", str "proxy-"]

/-- `str::strip_prefix("www.").unwrap_or(host)` (134). -/
def stripWww (h : Bytes) : Bytes := if (str "www.").isPrefixOf h then h.drop 4 else h

/-- `name: value` and a line end. emissary-cli/src/proxy/http/mod.rs 134. -/
def line (name value : Bytes) : Bytes := name ++ str ": " ++ value ++ str "\r\n"

/-- What a header contributes to the new request (182-241). -/
def sanitizeHeader (utf8 : Bytes → Bool) (host : Bytes) (h : Header) : Bytes :=
  if lower h.1 = str "user-agent" then str "User-Agent: MYOB/6.66 (AN/ON)\r\n"
  else if (str "accept").isPrefixOf (lower h.1) then
    if lower h.1 = str "accept-encoding" then line (str "Accept-Encoding") h.2 else []
  else if lower h.1 = str "connection" then
    if utf8 h.2 = true ∧ lower h.2 = str "upgrade" then str "Connection: upgrade\r\n"
    else str "Connection: close\r\n"
  else if lower h.1 = str "referer" then
    if utf8 h.2 then
      if contains h.2 host then line (str "Referer") h.2 else []
    else []
  else if illegal.any fun p => p.isPrefixOf (lower h.1) then []
  else line h.1 h.2

/-- The host a request is for (130-158). -/
def hostOf (utf8 : Bytes → Bool) (hs : List Header) : Except Error Bytes :=
  match hs.find? fun h => lower h.1 = str "host" with
  | none => .error .invalidHost
  | some h =>
    if utf8 h.2 then
      if (str ".i2p").isSuffixOf (stripWww h.2) then .ok (stripWww h.2) else .error .invalidHost
    else .error .malformed

/-- `parse_request` (119-248), from the point where the head is parsed. -/
def parseRequest (utf8 : Bytes → Bool) (target : Bytes → Bytes) (r : Head) : Except Error (Bytes × Bytes) :=
  match r.method with
  | none => .error .methodMissing
  | some m =>
    if m = str "GET" ∨ m = str "POST" then
      match hostOf utf8 r.headers with
      | .error e => .error e
      | .ok host =>
        match r.path with
        | none => .error .invalidPath
        | some p =>
          .ok (host, m ++ str " " ++ target p ++ str " " ++ str "HTTP/1.1\r\n" ++
            r.headers.flatMap (sanitizeHeader utf8 host) ++ str "\r\n" ++ r.body)
    else .error .methodNotSupported

/-- What `httparse` says about a piece of a request. `httparse::Status`, library. -/
inductive Parse
  | error
  | partial_
  | complete (r : Head)

/-- `read_request` (255-282). `data` is what the browser sends; `ns` are the amounts that the reads
could return. Running out of reads stands for the end of the connection, an error, and the ten seconds
of `run` (339). A read into a full buffer returns nothing, like a read at the end (261). The answer
has the complete request and what was not read. -/
def readRequest (parse : Bytes → Parse) (size : Nat) : (buffer data : Bytes) → (ns : List Nat) →
    Except Error (Head × Bytes)
  | _, _, [] => .error .io
  | buffer, data, n :: ns =>
    let got := data.take (min n (size - buffer.length))
    if got.length = 0 then .error .io
    else
      match parse (buffer ++ got) with
      | .error => .error .malformed
      | .complete r => .ok (r, data.drop got.length)
      | .partial_ => readRequest parse size (buffer ++ got) (data.drop got.length) ns

/-- The size of the buffer (256). -/
def bufferSize : Nat := 8192

/-- A connection of a browser: what is read is sanitised (275-282), sent to the destination, and then
only the answer is copied (318-321): nothing more is read from the browser. The answer has the host
that is connected to and the bytes it is sent. -/
def serve (utf8 : Bytes → Bool) (target : Bytes → Bytes) (parse : Bytes → Parse) (data : Bytes)
    (ns : List Nat) : Except Error (Bytes × Bytes) :=
  match readRequest parse bufferSize [] data ns with
  | .error e => .error e
  | .ok (r, _) => parseRequest utf8 target r

end Emissary.HttpProxy
