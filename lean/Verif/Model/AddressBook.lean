import Verif.Model.AMap
/-!
# The address book

`emissary-cli/src/address_book.rs`: lists of host names are downloaded, merged, and written to a
file; names are looked up in the file. Text is a list of characters. `ws` is `char::is_whitespace`.
The downloads themselves are given: which list arrived.
-/
namespace Emissary.AddressBook

/-- Not in the code: a helper of the model. -/
abbrev Str := List Char

/-- `str::lines` (141) and `AsyncBufReadExt::next_line` (280). Both also drop a carriage return before
the line feed; all that is used of a line is trimmed, so this makes no difference. The empty line
after the last line feed has no `=` and is skipped like every line without one. -/
def lines : Str → List Str
  | [] => [[]]
  | c :: s =>
    if c = '\n' then [] :: lines s
    else match lines s with
      | [] => [[c]]
      | l :: ls => (c :: l) :: ls

/-- `str::split_once('=')` (142, 281). -/
def splitOnce : Str → Option (Str × Str)
  | [] => none
  | c :: s => if c = '=' then some ([], s) else (splitOnce s).map fun p => (c :: p.1, p.2)

/-- `str::trim`. Standard or external library, not in /repo. -/
def trim (ws : Char → Bool) (s : Str) : Str := ((s.dropWhile ws).reverse.dropWhile ws).reverse

/-- The part before the first `#!` (152-155). -/
def cut : Str → Str
  | '#' :: '!' :: _ => []
  | c :: s => c :: cut s
  | [] => []

/-- One line of a list (141-160). -/
def addLine (ws : Char → Bool) (m : AMap Str Str) (line : Str) : AMap Str Str :=
  match splitOnce line with
  | none => m
  | some (key, value) =>
    let key := trim ws key
    if (m.get key).isSome then m else m.put (trim ws key) (trim ws (cut value))

/-- The first half of `parse_and_merge` (140-161). -/
def merge (ws : Char → Bool) (m : AMap Str Str) (hosts : Str) : AMap Str Str :=
  (lines hosts).foldl (addLine ws) m

/-- What is written to the file (170-173) when the map is iterated in the order `es`. -/
def render (es : List (Str × Str)) : Str := es.flatMap fun e => e.1 ++ '=' :: e.2 ++ ['\n']

/-- `AddressBookHandle::resolve` (272-291). -/
def resolve (ws : Char → Bool) (file : Str) (host : Str) : Option Str :=
  (lines file).findSome? fun line =>
    match splitOnce line with
    | none => none
    | some (key, value) => if trim ws key = host then some (trim ws value) else none

/-- The file and the map of the running program. emissary-cli/src/address_book.rs 46-55, 215-265. -/
structure State where
  /-- `none`: there is no file. -/
  file : Option Str := none
  addresses : AMap Str Str := []

/-- What happens. Not in the code: the events that the theorems quantify over. -/
inductive Op
  /-- the program is started: `run` begins with an empty map (222) -/
  | start
  /-- a list arrived (224-254); `order` is the order in which the map is iterated -/
  | merged (hosts : Str) (order : AMap Str Str → AMap Str Str)
  /-- the same, but the program stops when `n` characters are written: `File::create` has emptied the
  file (163) -/
  | torn (hosts : Str) (order : AMap Str Str → AMap Str Str) (n : Nat)

/-- One step. Not in the code: one event, handled by the definitions above. -/
def State.step (ws : Char → Bool) (s : State) : Op → State
  | .start => { s with addresses := [] }
  | .merged hosts order =>
    let m := merge ws s.addresses hosts
    { file := some (render (order m)), addresses := m }
  | .torn hosts order n =>
    let m := merge ws s.addresses hosts
    { file := some ((render (order m)).take n), addresses := m }

/-- A history. Not in the code: a fold of the steps. -/
def State.run (ws : Char → Bool) (s : State) (os : List Op) : State := os.foldl (State.step ws) s

/-- A lookup: nothing without a file (276). -/
def State.lookup (ws : Char → Bool) (s : State) (host : Str) : Option Str :=
  s.file.bind fun f => resolve ws f host

end Emissary.AddressBook
