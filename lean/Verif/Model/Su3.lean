import Verif.Model.Bytes
/-!
# Reseeding

`emissary-util/src/su3.rs` and `reseeder.rs`: the first routers are fetched from a reseed server as a
signed archive.
-/
namespace Emissary.Su3

/-- `SU3_MAGIC` (42): `I2Psu3`. -/
def magic : Bytes := [73, 50, 80, 115, 117, 51]

/-- `SignatureKind::try_from` (67-83). The kind is kept as its number. -/
def sigKindOk (n : Nat) : Bool := n ≤ 6 || n = 8
/-- `FileKind::try_from` (97-112); 0 is `Zip`. -/
def fileKindOk (n : Nat) : Bool := n ≤ 6
/-- `ContentKind::try_from` (126-142); 3 is `ReseedData`. -/
def contentKindOk (n : Nat) : Bool := n ≤ 5

/-- The first half of the header, up to the length of the version (173-185): the kind and length of
the signature and the length of the version. -/
def lead : Parser (Nat × Nat × Nat) := fun input => do
  let (m, r) ← takeN 6 input
  if m ≠ magic then none else
  let (_, r) ← beU 1 r
  let (_, r) ← beU 1 r
  let (sigKind, r) ← beU 2 r
  if sigKindOk sigKind = false then none else
  let (sigLen, r) ← beU 2 r
  let (_, r) ← beU 1 r
  let (versionLen, r) ← beU 1 r
  some ((sigKind, sigLen, versionLen), r)

/-- `Su3` (146-170). -/
structure File where
  content : Bytes
  contentKind : Nat
  fileKind : Nat
  message : Bytes
  signature : Bytes
  sigKind : Nat
  signer : Bytes
  version : Bytes
  deriving DecidableEq

/-- The rest of `parse_inner` (188-227). `message` is as many bytes of the input as there are left
after the content (212). -/
def body (input : Bytes) (sigKind sigLen versionLen : Nat) : Parser File := fun r => do
  let (_, r) ← beU 1 r
  let (signerLen, r) ← beU 1 r
  let (contentLen, r) ← beU 8 r
  let (_, r) ← beU 1 r
  let (fileKind, r) ← beU 1 r
  if fileKindOk fileKind = false then none else
  let (_, r) ← beU 1 r
  let (contentKind, r) ← beU 1 r
  if contentKindOk contentKind = false then none else
  let (_, r) ← takeN 12 r
  let (version, r) ← takeN versionLen r
  let (signer, r) ← takeN signerLen r
  let (content, r) ← takeN contentLen r
  let message := input.take r.length
  let (signature, r) ← takeN sigLen r
  some ({ content, contentKind, fileKind, message, signature, sigKind, signer, version }, r)

/-- What happens. Not in the code: the effects that can be observed. -/
inductive Res (α : Type)
  | panic
  | fail
  | ok (a : α)
  deriving DecidableEq

/-- `parse_inner` (174-228). `chk`: with debug assertions (186). -/
def parseInner (chk : Bool) (input : Bytes) : Res File :=
  match lead input with
  | none => .fail
  | some ((sigKind, sigLen, versionLen), r) =>
    if chk = true ∧ versionLen < 16 then .panic
    else match body input sigKind sigLen versionLen r with
      | none => .fail
      | some (f, _) => .ok f

/-- An entry of the archive, as the `zip` crate gives it: `none` if `by_index` fails (as for an
encrypted entry, or a compression it does not know); otherwise the name, if it stays inside the
directory, whether it is a file, and its data, if it can be unpacked. `zip` crate, library. -/
structure Entry where
  name : Option String
  isFile : Bool
  data : Option Bytes

/-- The entries that are used (275-297); `expect` in 277. -/
def unpack : List (Option Entry) → Res (List (String × Bytes))
  | [] => .ok []
  | none :: _ => .panic
  | some e :: es =>
    match unpack es with
    | .panic => .panic
    | .fail => .fail
    | .ok rest =>
      match e.name with
      | none => .ok rest
      | some name =>
        if e.isFile = false then .ok rest
        else match e.data with
          | none => .ok rest
          | some d => .ok ((name, d) :: rest)

/-- What the log says about the signature (234-264). -/
inductive Verdict | silent | unknownSigner | badSignature | badSignerId
  deriving DecidableEq

/-- The check of the signature (234-264): `utf8` and `keys` find the signer's key, `sigOk` is
`Signature::try_from(..).is_ok()`, `check` is `VerifyingKey::verify`. -/
def judge (utf8 : Bytes → Bool) (keys : Bytes → Option Nat) (sigOk : Bytes → Bool)
    (check : Nat → Bytes → Bytes → Bool) (f : File) : Verdict :=
  if utf8 f.signer then
    match keys f.signer with
    | none => .unknownSigner
    | some k => if sigOk f.signature && !check k f.message f.signature then .badSignature else .silent
  else .badSignerId

/-- `parse_reseed` (231-303), with what it says in the log. `zip` is the `zip` crate. The temporary
directory is not modelled. -/
def parseReseed (chk : Bool) (judge : File → Verdict) (zip : Bytes → Option (List (Option Entry)))
    (input : Bytes) (verify : Bool) : Res (List (String × Bytes)) × Verdict :=
  match parseInner chk input with
  | .panic => (.panic, .silent)
  | .fail => (.fail, .silent)
  | .ok f =>
    let v := if verify then judge f else .silent
    if f.fileKind = 0 ∧ f.contentKind = 3 then
      match zip f.content with
      | none => (.fail, v)
      | some es => (unpack es, v)
    else (.fail, v)

/-! ## `reseeder.rs` -/

/-- `NUM_RETRIES` (33). -/
def numRetries : Nat := 5

/-- How `reseed_inner` ends. Not in the code: the effects that can be observed. -/
inductive Outcome
  /-- `gen_range` of an empty range -/
  | panic
  /-- the random numbers given are used up: still looking for a server -/
  | running
  | failed
  | done (server : Nat) (routers : List (String × Bytes))
  deriving DecidableEq

/-- The loop that looks for a server not tried yet (66-72): the server and the random numbers left. -/
def pick (tried : List Nat) : List Nat → Option (Nat × List Nat)
  | [] => none
  | r :: rs => if tried.contains r then pick tried rs else some (r, rs)

/-- The attempts (65-114). `answer s` is what server `s` sends, if it can be used; `rs` are the random
numbers `gen_range(0..hosts.len())` draws. -/
def attempts (answer : Nat → Option (List (String × Bytes))) : (left : Nat) → (tried rs : List Nat) →
    Outcome × List Nat
  | 0, tried, _ => (.failed, tried)
  | left + 1, tried, rs =>
    match pick tried rs with
    | none => (.running, tried)
    | some (server, rs) =>
      match answer server with
      | some routers => (.done server routers, tried ++ [server])
      | none => attempts answer left (tried ++ [server]) rs

/-- `reseed_inner` (53-117): the outcome and the servers that were asked. -/
def reseed (hosts : Nat) (answer : Nat → Option (List (String × Bytes))) (rs : List Nat) :
    Outcome × List Nat :=
  if hosts = 0 then (.panic, []) else attempts answer numRetries [] rs

end Emissary.Su3
