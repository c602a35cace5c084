import Verif.Model.HttpProxy
import Verif.Model.Net
/-!
# What the HTTP proxy answers: error pages and copied replies

Sources: `emissary-cli/src/proxy/http/response.rs` and `emissary-cli/src/proxy/http/mod.rs` 285-390. Bytes stand for
texts; a browser that goes away while it is answered is left out.
-/
namespace Emissary.HttpProxy

/-- `Status` (response.rs 20-26). -/
inductive Status
  | badRequest | internalServerError
  deriving DecidableEq

/-- `Status::to_string` (response.rs 28-35). -/
def Status.text : Status → Bytes
  | .badRequest => str "400 Bad Request"
  | .internalServerError => str "500 Internal Server Error"

/-- The body of a page (response.rs 69-82). -/
def pageBody (s : Status) (error : Bytes) : Bytes :=
  str "\n            <!DOCTYPE html>\n            <html>\n            <head>\n                <title>" ++ s.text ++
  str "</title>\n            </head>\n            <body>\n                <h1>" ++ s.text ++
  str "</h1>\n                <p>" ++ error ++
  str "</p>\n            </body>\n            </html>\n        "

/-- `ResponseBuilder::build` (response.rs 63-89), of a builder that was given its error. -/
def page (s : Status) (error : Bytes) : Bytes :=
  str "HTTP/1.1 " ++ s.text ++ str "\r\n" ++ str "Content-Type: text/html; charset=UTF-8" ++ str "\r\n" ++
  str "Content-Length: " ++ Net.dec (pageBody s error).length ++ str "\r\n\r\n" ++ pageBody s error

/-- What becomes of the connection to a destination: it is not established, it breaks before the request is written, or the
destination sends a reply and closes (mod.rs 303-333). -/
inductive Far
  | refused
  | broken
  | replied (b : Bytes)
  deriving DecidableEq

/-- The text for a request that is not understood (mod.rs 351-355). -/
def refusal : Error → Option Bytes
  | .io => none
  | .invalidHost => some (str "Only .i2p and .b32.i2p hosts are supported")
  | _ => some (str "Malformed request")

/-- What a browser is sent before its connection is closed (mod.rs 289-335, 337-372). `data` and `ns` are as in `serve`: the ten
seconds of `run` are the end of `ns`. -/
def answer (utf8 : Bytes → Bool) (target : Bytes → Bytes) (parse : Bytes → Parse) (reach : Bytes → Bytes → Far)
    (data : Bytes) (ns : List Nat) : Bytes :=
  match serve utf8 target parse data ns with
  | .error e =>
    match refusal e with
    | none => []
    | some t => page .badRequest t
  | .ok (host, sent) =>
    match reach host sent with
    | .refused => page .internalServerError (str "Failed to establish connection to " ++ host)
    | .broken => []
    | .replied b => b

end Emissary.HttpProxy
