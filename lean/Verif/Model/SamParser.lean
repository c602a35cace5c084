import Verif.Model.Bytes
import Verif.Model.AMap
/-!
# The commands of a SAM client

`emissary-core/src/sam/parser.rs`, with the parsers of the library `nom` (version 7) that it uses.

Simplifications: a text is a list of characters. Base 32 and base 64 and the parser of destinations are parameters. A transient destination is not made here, its
keys are random. Logging is left out.
-/
namespace Emissary.SamParser

/-- A text. Not in the code: a helper of the model. -/
abbrev Str := List Char

/-- `alpha1`: ASCII letters. -/
def isAlpha (c : Char) : Bool := ('a' ≤ c && c ≤ 'z') || ('A' ≤ c && c ≤ 'Z')

/-- `alphanumeric1`: ASCII letters and digits. -/
def isAlnum (c : Char) : Bool := isAlpha c || ('0' ≤ c && c ≤ '9')

/-- `char::is_whitespace`: the property White_Space of Unicode. Standard or external library, not in /repo. -/
def isSpace (c : Char) : Bool :=
  let n := c.toNat
  (9 ≤ n && n ≤ 13) || n == 32 || n == 0x85 || n == 0xA0 || n == 0x1680 || (0x2000 ≤ n && n ≤ 0x200A) || n == 0x2028 || n == 0x2029 || n == 0x202F || n == 0x205F || n == 0x3000

/-- `multispace0`: blanks, tabs and line ends. -/
def isBlank (c : Char) : Bool := c == ' ' || c == '\t' || c == '\r' || c == '\n'

/-- `tag`. Standard or external library, not in /repo. -/
def tag (t s : Str) : Option Str := if t.isPrefixOf s then some (s.drop t.length) else none

/-- `alt` of `tag`s: the first one that fits. Standard or external library, not in /repo. -/
def oneOf : List Str → Str → Option (Str × Str)
  | [], _ => none
  | t :: ts, s => match tag t s with
    | some r => some (t, r)
    | none => oneOf ts s

/-- `opt(char(' '))`. Standard or external library, not in /repo. -/
def optBlank : Str → Str
  | ' ' :: s => s
  | s => s

/-- What may follow the first character of a key, line 684. -/
def isKeyChar (c : Char) : Bool := isAlnum c || c == '_' || c == '.'

/-- `parse_key`, lines 681-687. -/
def key : Str → Option (Str × Str)
  | [] => none
  | c :: s => if isAlpha c || c == '_' then some ((c :: s).takeWhile isKeyChar, (c :: s).dropWhile isKeyChar) else none

/-- `escaped(is_not("\\\""), '\\', alt((tag("\""), tag("\\"))))`, line 699: what comes before the closing quote. That it must not be empty is said in `quoted`. -/
def body : Str → Option (Str × Str)
  | [] => some ([], [])
  | c :: s =>
    if c = '"' then some ([], c :: s)
    else if c = '\\' then match s with
      | [] => none
      | d :: s => if d = '"' ∨ d = '\\' then (body s).map fun x => (c :: d :: x.1, x.2) else none
    else (body s).map fun x => (c :: x.1, x.2)

/-- `parse_quoted_value`, lines 696-702. -/
def quoted : Str → Option (Str × Str)
  | [] => none
  | c :: s =>
    if c = '"' then match body s with
      | none => none
      | some (v, r) => if v = [] then none else match r with
        | [] => none
        | d :: r => if d = '"' then some (v, r) else none
    else none

/-- `take_while1`. -/
def bare (s : Str) : Option (Str × Str) :=
  let v := s.takeWhile fun c => !isSpace c
  if v = [] then none else some (v, s.dropWhile fun c => !isSpace c)

/-- `parse_value`, lines 689-694. -/
def value (s : Str) : Option (Str × Str) :=
  match quoted s with
  | some x => some x
  | none => bare s

/-- `parse_key_value`, lines 677-679. -/
def keyValue (s : Str) : Option ((Str × Str) × Str) :=
  match key s with
  | none => none
  | some (k, r) => match r with
    | [] => none
    | c :: r => if c = '=' then (value r).map fun x => ((k, x.1), x.2) else none

/-- `many0(preceded(multispace0, parse_key_value))`, line 673, for at most so many pairs. -/
def pairs : Nat → Str → List (Str × Str) × Str
  | 0, s => ([], s)
  | n + 1, s => match keyValue (s.dropWhile isBlank) with
    | none => ([], s)
    | some (x, r) => let y := pairs n r; (x :: y.1, y.2)

/-- Kind of a session, lines 75-84. -/
inductive Kind where
  | stream
  | datagram
  | anonymous
deriving DecidableEq

/-- `SamVersion`, lines 98-107. -/
inductive Version where
  | v31
  | v32
  | v33
deriving DecidableEq

/-- `SamVersion::try_from`, lines 112-119. -/
def version (s : Str) : Option Version :=
  if s = "3.1".toList then some .v31 else if s = "3.2".toList then some .v32 else if s = "3.3".toList then some .v33 else none

/-- `HostKind`, lines 163-181. -/
inductive Host (D : Type) where
  | dest (d : D)
  | b32 (id : Bytes)
  | name (s : Str)
deriving DecidableEq

/-- `DestinationContext`, lines 134-143: made for the session, or given with its private keys. -/
inductive Ctx (D : Type) where
  | transient
  | given (d : D) (priv sign : Bytes)
deriving DecidableEq

/-- `SamCommand`, lines 212-281. -/
inductive Cmd (D : Type) where
  | hello (min max : Option Version)
  | create (id : Str) (kind : Kind) (ctx : Ctx D) (opts : AMap Str Str)
  | connect (id : Str) (host : Host D) (opts : AMap Str Str)
  | accept (id : Str) (opts : AMap Str Str)
  | forward (id : Str) (port : Nat) (opts : AMap Str Str)
  | lookup (name : Str)
  | generate
deriving DecidableEq

/-- What the parser relies on: `base64_decode`, `base32_decode` and `Destination::parse_frame`. `Destination::parse` keeps the destination. -/
structure Env (D : Type) where
  base64 : Str → Option Bytes
  base32 : Str → Option Bytes
  dest : Bytes → Option (D × Bytes)

/-- What a command is taken for. `panic`: the program stops. Result of sam/parser.rs. -/
inductive Res (α : Type) where
  | ok (a : α)
  | err
  | panic
deriving DecidableEq

/-- `str::find`: where the first occurrence begins. Standard or external library, not in /repo. -/
def find (t : Str) : Str → Option Nat
  | [] => if t = [] then some 0 else none
  | c :: s => if t.isPrefixOf (c :: s) then some 0 else (find t s).map (· + 1)

/-- `&s[a..b]`, which panics unless the bounds are in order. Standard or external library, not in /repo. -/
def slice (s : Str) (a b : Nat) : Option Str := if a ≤ b ∧ b ≤ s.length then some ((s.drop a).take (b - a)) else none

/-- Lines 443-449 and 469-475: where the name of the host begins. -/
def start (s : Str) : Nat := if "http://".toList.isPrefixOf s then 7 else if "https://".toList.isPrefixOf s then 8 else 0

/-- Lines 436-486. -/
def host {D : Type} (e : Env D) (s : Str) : Res (Host D) :=
  match find ".b32.i2p".toList s with
  | some e' => match slice s (start s) e' with
    | none => .panic
    | some x => match e.base32 x with
      | none => .err
      | some b => .ok (.b32 b)
  | none =>
    if ".i2p".toList.isSuffixOf s then
      match slice s (start s) s.length with
      | none => .panic
      | some x => .ok (.name x)
    else match e.base64 s with
      | none => .err
      | some b => match e.dest b with
        | none => .err
        | some (d, _) => .ok (.dest d)

/-- A decimal digit. Standard or external library, not in /repo. -/
def digit (c : Char) : Option Nat := if '0' ≤ c ∧ c ≤ '9' then some (c.toNat - '0'.toNat) else none

/-- The digits of a number. Standard or external library, not in /repo. -/
def number : Nat → Str → Option Nat
  | n, [] => some n
  | n, c :: s => match digit c with
    | none => none
    | some d => if n * 10 + d < 65536 then number (n * 10 + d) s else none

/-- `parse::<u16>`: a sign `+` is allowed. -/
def port : Str → Option Nat
  | [] => none
  | '+' :: c :: s => number 0 (c :: s)
  | '+' :: [] => none
  | s => number 0 s

/-- Lines 368-409. The keys are 32 bytes long, so that `expect` does not fail. -/
def ctx {D : Type} (e : Env D) : Option Str → Option (Ctx D)
  | none => none
  | some s =>
    if s = "TRANSIENT".toList then some .transient
    else match e.base64 s with
      | none => none
      | some b => match e.dest b with
        | none => none
        | some (d, r) => if 64 ≤ r.length then some (.given d (r.take 32) ((r.drop 32).take 32)) else none

/-- Lines 333-366, with the options that result. -/
def kind (o : AMap Str Str) : Option Str → Option (Kind × AMap Str Str)
  | none => none
  | some s =>
    if s = "STREAM".toList then some (.stream, o)
    else if s = "RAW".toList ∨ s = "DATAGRAM".toList then
      match o.get "PORT".toList with
      | none => none
      | some _ =>
        let o := if (o.get "HOST".toList).isNone then o.put "HOST".toList "127.0.0.1".toList else o
        some (if s = "RAW".toList then .anonymous else .datagram, o)
    else none

/-- `SESSION CREATE`, lines 321-421. -/
def create {D : Type} (e : Env D) (o : AMap Str Str) : Option (Cmd D) :=
  match o.get "ID".toList with
  | none => none
  | some id =>
    let o := o.del "ID".toList
    match kind (o.del "STYLE".toList) (o.get "STYLE".toList) with
    | none => none
    | some (k, o) =>
      match ctx e (o.get "DESTINATION".toList) with
      | none => none
      | some c => some (.create id k c (o.del "DESTINATION".toList))

/-- No panic. Not in the code: a helper of the model. -/
def Res.of {α : Type} : Option α → Res α
  | none => .err
  | some a => .ok a

/-- `STREAM CONNECT`, lines 422-497. -/
def connect {D : Type} (e : Env D) (o : AMap Str Str) : Res (Cmd D) :=
  match o.get "ID".toList, o.get "DESTINATION".toList with
  | some id, some d => match host e d with
    | .ok h => .ok (.connect id h o)
    | .err => .err
    | .panic => .panic
  | _, _ => .err

/-- `STREAM ACCEPT`, lines 498-514. -/
def accept {D : Type} (o : AMap Str Str) : Option (Cmd D) := (o.get "ID".toList).map fun id => .accept id o

/-- `STREAM FORWARD`, lines 515-543. -/
def forward {D : Type} (o : AMap Str Str) : Option (Cmd D) :=
  match o.get "ID".toList, o.get "PORT".toList with
  | some id, some p => (port p).map fun n => .forward id n o
  | _, _ => none

/-- `NAMING LOOKUP`, lines 544-546. -/
def naming {D : Type} (o : AMap Str Str) : Option (Cmd D) := (o.get "NAME".toList).map .lookup

/-- `DEST GENERATE`, lines 547-565. -/
def generate {D : Type} (o : AMap Str Str) : Option (Cmd D) := if o.get "SIGNATURE_TYPE".toList = some "7".toList then some .generate else none

/-- `SamCommand::try_from`, lines 309-577. -/
def command {D : Type} (e : Env D) (c : Str) (sub : Option Str) (o : AMap Str Str) : Res (Cmd D) :=
  if c = "HELLO".toList ∧ sub = some "VERSION".toList then
    .ok (.hello ((o.get "MIN".toList).bind version) ((o.get "MAX".toList).bind version))
  else if c = "SESSION".toList ∧ sub = some "CREATE".toList then .of (create e o)
  else if c = "STREAM".toList ∧ sub = some "CONNECT".toList then connect e o
  else if c = "STREAM".toList ∧ sub = some "ACCEPT".toList then .of (accept o)
  else if c = "STREAM".toList ∧ sub = some "FORWARD".toList then .of (forward o)
  else if c = "NAMING".toList ∧ sub = some "LOOKUP".toList then .of (naming o)
  else if c = "DEST".toList ∧ sub = some "GENERATE".toList then .of (generate o)
  else .err

/-- The words that a command begins with, lines 586-592. -/
def words : List Str := ["HELLO".toList, "SESSION".toList, "STREAM".toList, "NAMING".toList, "DEST".toList]

/-- The words that follow, lines 594-602. -/
def subwords : List Str := ["VERSION".toList, "CREATE".toList, "CONNECT".toList, "ACCEPT".toList, "FORWARD".toList, "LOOKUP".toList, "GENERATE".toList]

/-- `opt(alt(…))`. Standard or external library, not in /repo. -/
def optOneOf (l : List Str) (s : Str) : Option Str × Str :=
  match oneOf l s with
  | some (w, r) => (some w, r)
  | none => (none, s)

/-- `SamCommand::parse`, lines 584-622. What follows the pairs is ignored. -/
def parse {D : Type} (e : Env D) (s : Str) : Res (Cmd D) :=
  match oneOf words s with
  | none => .err
  | some (c, r) =>
    let x := optOneOf subwords (optBlank r)
    let y := pairs (optBlank x.2).length (optBlank x.2)
    command e c x.1 (AMap.puts [] y.1)

/-- `Datagram`, lines 626-635. -/
structure Datagram (D : Type) where
  id : Str
  dest : D
  data : Bytes
deriving DecidableEq

/-- `position`. Standard or external library, not in /repo. -/
def position (c : UInt8) (b : Bytes) : Option Nat := b.findIdx? (· = c)

/-- `Datagram::parse`, lines 639-669. `text`: `core::str::from_utf8`. -/
def datagram {D : Type} (e : Env D) (text : Bytes → Option Str) (b : Bytes) : Res (Datagram D) :=
  if b.length < 4 then .panic
  else match position 32 (b.drop 4) with
    | none => .err
    | some n => if b.length < n + 5 then .panic
      else match position 10 (b.drop (n + 5)) with
        | none => .err
        | some m => match text ((b.drop 4).take n) with
          | none => .err
          | some id => match text ((b.drop (n + 5)).take m) with
            | none => .err
            | some t => match e.base64 t with
              | none => .err
              | some raw => match e.dest raw with
                | none => .err
                | some (d, _) => .ok ⟨id, d, b.drop (n + m + 6)⟩

end Emissary.SamParser
