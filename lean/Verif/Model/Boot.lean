import Verif.Model.Bytes
/-!
# Starting the program

`emissary-cli/src/config.rs`, `Config::parse` and what it calls: directories, key files and
`router.toml` are read, and made if they are missing. A start is the list of changes it makes to the
disk, one after another, so that it can be stopped after any number of them. What was written stays
written: loss of written data, as after a power failure, is not modelled. The values of the
configuration are a type `C`.
-/
namespace Emissary.Boot

/-- The files in the base directory. emissary-cli/src/config.rs 387-509. -/
inductive Name | static | signing | ntcp2 | ssu2 | toml
  deriving DecidableEq

/-- The base directory. `none`: does not exist. emissary-cli/src/config.rs 387-509. -/
structure Disk where
  base : Bool := false
  /-- the directories in `netDb` -/
  netDb : Option (List Char) := none
  /-- the directories in `peerProfiles` -/
  profiles : Option (List Char) := none
  file : Name → Option Bytes := fun _ => none

/-- A change of the disk. Not in the code: a helper of the model. -/
inductive Eff
  | mkBase
  | mkNetDb | mkNetDbSub (c : Char)
  | mkProfiles | mkProfilesSub (c : Char)
  /-- `File::create`: the file is there and empty -/
  | create (n : Name)
  /-- a byte is written at the end of the file -/
  | byte (n : Name) (b : UInt8)

/-- The effect of a change. Not in the code: a helper of the model. -/
def Disk.apply (d : Disk) : Eff → Disk
  | .mkBase => { d with base := true }
  | .mkNetDb => { d with netDb := some (d.netDb.getD []) }
  | .mkNetDbSub c => { d with netDb := d.netDb.map (c :: ·) }
  | .mkProfiles => { d with profiles := some (d.profiles.getD []) }
  | .mkProfilesSub c => { d with profiles := d.profiles.map (c :: ·) }
  | .create n => { d with file := fun m => if m = n then some [] else d.file m }
  | .byte n b => { d with file := fun m => if m = n then (d.file m).map (· ++ [b]) else d.file m }

/-- Several changes. Not in the code: a helper of the model. -/
def Disk.applyAll (d : Disk) (es : List Eff) : Disk := es.foldl Disk.apply d

/-- The names of the directories in `netDb` and `peerProfiles` (648, 662). -/
def subdirs : List Char := "ABCDEFGHIJKLMNOPQRSTUVWXYZabcdefghijklmnopqrstuvwxyz0123456789-~".toList

/-- `create_netdb_dir` (647-658). -/
def mkNetDb : List Eff := .mkNetDb :: subdirs.map .mkNetDbSub
/-- `create_profiles_dir` (661-672). -/
def mkProfiles : List Eff := .mkProfiles :: subdirs.map .mkProfilesSub

/-- `File::create` and `write_all`: `save_key` (573-578), `create_ntcp2_keys` (535-542),
`create_ssu2_keys` (558-565), and for `router.toml` (683-686, 762-763). -/
def save (n : Name) (bs : Bytes) : List Eff := .create n :: bs.map (.byte n)

/-- `load_key`, `load_ntcp2_keys`, `load_ssu2_keys` (581-619): `read_exact`. -/
def load (d : Disk) (n : Name) (len : Nat) : Option Bytes :=
  match d.file n with
  | none => none
  | some bs => if len ≤ bs.length then some (bs.take len) else none

/-- The keys of a router: `static.key`, `signing.key`, `ntcp2.keys` (key and IV), `ssu2.keys` (static
and introduction key). -/
structure Keys where
  static : Bytes
  signing : Bytes
  ntcp2 : Bytes
  ssu2 : Bytes
  deriving DecidableEq

/-- What is in `router.toml`: no text, no configuration, or a configuration. emissary-cli/src/config.rs 677-742. -/
inductive Toml (C : Type)
  | unreadable
  | invalid
  | valid (c : C)

/-- What a start needs besides the disk: `keys` are freshly made, `parse` is `read_to_string` and
`toml::from_str`, `default` is `EmissaryConfig::default()` and `image` its text, `check` tells whether
the tunnels of a configuration are acceptable (767-830), `merge` is `merge` with the arguments, and
`overwrite` is `--overwrite-config`. -/
structure Env (C : Type) where
  keys : Keys
  parse : Bytes → Toml C
  default : C
  image : Bytes
  check : C → Bool
  merge : C → C
  overwrite : Bool

/-- Where `router.toml` comes from (487-492): a configuration from the file, `none` for a new default
one, or an error. -/
def tomlOf (e : Env C) (d : Disk) : Except Unit (Option C) :=
  match d.file .toml with
  | none => .ok none
  | some bs =>
    match e.parse bs with
    | .unreadable => .ok none
    | .invalid => if e.overwrite then .ok none else .error ()
    | .valid c => .ok (some c)

/-- A key file is read or made (426-478). -/
def key (d : Disk) (n : Name) (len : Nat) (fresh : Bytes) : List Eff × Bytes :=
  match load d n len with
  | some k => ([], k)
  | none => (save n fresh, fresh)

/-- `Config::parse` (387-509): the changes, and the keys and the configuration if there are no errors.
The keys of `new_empty` (677-742) are all new, and its configuration is the default one without
`merge`. Reading the routers and profiles changes nothing and is left out. -/
def boot (e : Env C) (d : Disk) : List Eff × Option (Keys × C) :=
  if d.base = false then
    (.mkBase :: mkNetDb ++ mkProfiles ++ save .static e.keys.static ++ save .signing e.keys.signing ++
      save .ntcp2 e.keys.ntcp2 ++ save .ssu2 e.keys.ssu2 ++ save .toml e.image, some (e.keys, e.default))
  else
    let dirs := (if d.netDb = none then mkNetDb else []) ++ (if d.profiles = none then mkProfiles else [])
    let s := key d .static 32 e.keys.static
    let g := key d .signing 32 e.keys.signing
    let n := key d .ntcp2 48 e.keys.ntcp2
    let u := key d .ssu2 64 e.keys.ssu2
    let ks := dirs ++ s.1 ++ g.1 ++ n.1 ++ u.1
    let keys : Keys := ⟨s.2, g.2, n.2, u.2⟩
    match tomlOf e d with
    | .error () => (ks, none)
    | .ok none => (ks ++ save .toml e.image, if e.check e.default then some (keys, e.merge e.default) else none)
    | .ok (some c) => (ks, if e.check c then some (keys, e.merge c) else none)

/-- A start that runs to its end, or is stopped after a number of changes. Not in the code: the events that the theorems quantify over. -/
structure Op (C : Type) where
  env : Env C
  stop : Option Nat := none

/-- What a start leaves on the disk, and what it returns. Not in the code: one event, handled by the definitions above. -/
def step (d : Disk) (o : Op C) : Disk × Option (Keys × C) :=
  match o.stop with
  | none => (d.applyAll (boot o.env d).1, (boot o.env d).2)
  | some n => (d.applyAll ((boot o.env d).1.take n), none)

/-- Many starts. Not in the code: a fold of the steps. -/
def runDisk (d : Disk) (os : List (Op C)) : Disk := os.foldl (fun d o => (step d o).1) d

end Emissary.Boot
