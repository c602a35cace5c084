import Verif.Model.AMap
import Verif.Model.Bytes
/-!
# Router infos and profiles on the disk

Models `emissary-cli/src/storage.rs` and the loading of router infos and profiles in
`emissary-cli/src/config.rs`. Simplifications: a file is known by the directory `netDb` or
`peerProfiles`, the character of its subdirectory and its name; identifiers have no `/`; only the
subdirectories `rX` and `pX` exist; file contents grow one byte at a time, and the program may be killed
between two changes; batches are stored one after the other; decompression and the text form of profiles
are parameters; paths are lists of characters, so that offsets count characters.
-/
namespace Emissary.Storage

/-! Parts of file names (storage.rs:50-53, 80). -/
/-- `profile-` (storage.rs:50-80). -/
def tag : List Char := ['p', 'r', 'o', 'f', 'i', 'l', 'e', '-']
/-- `.toml` (storage.rs:50-80). -/
def ext : List Char := ['.', 't', 'o', 'm', 'l']
/-- `.dat` (storage.rs:50-80). -/
def dat : List Char := ['.', 'd', 'a', 't']
/-- `routerInfo-` (storage.rs:50-80). -/
def infoTag : List Char := ['r', 'o', 'u', 't', 'e', 'r', 'I', 'n', 'f', 'o', '-']
/-- `netDb` (storage.rs:50-80). -/
def netDbName : List Char := ['n', 'e', 't', 'D', 'b']
/-- `peerProfiles` (storage.rs:50-80). -/
def profilesName : List Char := ['p', 'e', 'e', 'r', 'P', 'r', 'o', 'f', 'i', 'l', 'e', 's']

/-- The two directories (storage.rs:50-53, 80). -/
inductive Kind where
  | netDb | profiles
deriving DecidableEq

/-- A file: directory, character of the subdirectory, name. emissary-cli/src/storage.rs 50-80. -/
structure Key where
  kind : Kind
  dir : Char
  name : List Char
deriving DecidableEq

/-- A profile in memory (`emissary_core::Profile`): durations are in milliseconds. emissary-core/src/profile.rs. -/
structure Profile where
  lastActivity : Nat
  lastDeclined : Option Nat
  lastDialFailure : Option Nat
  /-- the counters (config.rs:43-53): there are eleven -/
  counts : List Nat
deriving DecidableEq

/-- A profile on the disk (`Profile`, config.rs:38-54). -/
structure Saved where
  lastActivity : Option Nat
  lastDeclined : Option Nat
  lastDialFailure : Option Nat
  counts : List (Option Nat)
deriving DecidableEq

/-- `From<emissary_core::Profile>` (config.rs:56-78). -/
def Saved.of (p : Profile) : Saved :=
  { lastActivity := some (p.lastActivity / 1000)
    lastDeclined := p.lastDeclined.map (· / 1000)
    lastDialFailure := p.lastDialFailure.map (· / 1000)
    counts := p.counts.map some }

/-- The profile that `load_router_profiles` makes of the saved one (config.rs:968-995). -/
def Saved.profile (s : Saved) : Profile :=
  { lastActivity := s.lastActivity.getD 0 * 1000
    lastDeclined := s.lastDeclined.map (· * 1000)
    lastDialFailure := s.lastDialFailure.map (· * 1000)
    counts := s.counts.map (·.getD 0) }

/-- What the code uses: decompression, and the text form of profiles.
Not in the code: what the model takes as given, for every value of it. -/
structure Env where
  gunzip : Bytes → Option Bytes
  render : Saved → Bytes
  parse : Bytes → Option Saved
  /-- The data directory. -/
  base : List Char

/-- The disk: which subdirectories there are, and the files. Not in the code: a helper of the model. -/
structure FS where
  dirs : List (Kind × Char) := []
  files : AMap Key Bytes := []

/-- A change of the disk. Not in the code: a helper of the model. -/
inductive Eff where
  | create (k : Key)
  | byte (k : Key) (b : UInt8)

/-- Not in the code: a helper of the model. -/
def FS.apply (fs : FS) : Eff → FS
  | .create k => { fs with files := fs.files.put k [] }
  | .byte k b => { fs with files := fs.files.put k ((fs.files.get k).getD [] ++ [b]) }

/-- Not in the code: a helper of the model. -/
def FS.applyAll (fs : FS) (es : List Eff) : FS := es.foldl FS.apply fs

/-- `File::create` and `write_all`: fails if there is no such directory. Standard or external library, not in /repo. -/
def write (fs : FS) (k : Key) (bs : Bytes) : List Eff :=
  if (k.kind, k.dir) ∈ fs.dirs then .create k :: bs.map (.byte k) else []

/-- The name of the file of a router info (storage.rs:49-52). -/
def infoName (id : List Char) : List Char :=
  if dat.isSuffixOf id then infoTag ++ id else infoTag ++ id ++ dat

/-- `store_router_info` (storage.rs:47-59). -/
def storeInfo (fs : FS) (id : List Char) (info : Bytes) : List Eff :=
  match id.head? with
  | none => []
  | some c => write fs ⟨.netDb, c, infoName id⟩ info

/-- `store_profile` (storage.rs:61-87). -/
def storeProfile (e : Env) (fs : FS) (id : List Char) (p : Profile) : List Eff :=
  match id.head? with
  | none => []
  | some c =>
    match fs.files.get ⟨.netDb, c, infoTag ++ id ++ dat⟩ with
    | none => []
    | some _ => write fs ⟨.profiles, c, tag ++ id ++ ext⟩ (e.render (.of p))

/-- One router of a batch: identifier, compressed router info if it has changed, profile. emissary-cli/src/storage.rs 61-134. -/
structure Router where
  id : List Char
  info : Option Bytes
  profile : Profile

/-- The router info of one router in `save_to_disk` (storage.rs:104-122). -/
def saveInfo (e : Env) (fs : FS) (r : Router) : List Eff :=
  match r.info with
  | none => []
  | some gz => match e.gunzip gz with
    | none => []
    | some info => storeInfo fs r.id info

/-- The body of the loop of `save_to_disk` (storage.rs:103-131). -/
def saveOne (e : Env) (fs : FS) (r : Router) : List Eff :=
  saveInfo e fs r ++ storeProfile e (fs.applyAll (saveInfo e fs r)) r.id r.profile

/-- `save_to_disk` (storage.rs:99-134). -/
def save (e : Env) (fs : FS) : List Router → List Eff
  | [] => []
  | r :: rs => saveOne e fs r ++ save e (fs.applyAll (saveOne e fs r)) rs

/-- `str::find`: the first place of a text in another. Standard or external library, not in /repo. -/
def find (pat : List Char) : List Char → Option Nat
  | [] => if pat = [] then some 0 else none
  | c :: s => if pat.isPrefixOf (c :: s) then some 0 else (find pat s).map (· + 1)

/-- The path of a file (config.rs:932-951). -/
def path (base : List Char) (k : Key) : List Char :=
  base ++ '/' :: ((match k.kind with | .netDb => netDbName | .profiles => profilesName) ++
    '/' :: ((match k.kind with | .netDb => 'r' | .profiles => 'p') :: k.dir :: '/' :: k.name))

/-- A name read from a path: there may be none, or the program panics. emissary-cli/src/config.rs 891-951. -/
inductive Extract where
  | skip
  | panics
  | name (s : List Char)
deriving DecidableEq

/-- The name of the router of a profile file (config.rs:958-965): from the end of the first `profile-`
to the first `.toml` of the path. -/
def extract (p : List Char) : Extract :=
  match find tag p with
  | none => .skip
  | some i => match find ext p with
    | none => .skip
    | some j => if i + 8 ≤ j then .name ((p.take j).drop (i + 8)) else .panics

/-- One file in `load_router_profiles` (config.rs:944-996). -/
def loadOne (e : Env) (k : Key) (bs : Bytes) : Option (Option (List Char × Profile)) :=
  match e.parse bs with
  | none => some none
  | some s => match extract (path e.base k) with
    | .skip => some none
    | .panics => none
    | .name n => some (some (n, s.profile))

/-- `load_router_profiles` over a list of files (config.rs:931-1003); `none` if it panics. -/
def loadProfiles (e : Env) : AMap Key Bytes → Option (List (List Char × Profile))
  | [] => some []
  | (k, bs) :: fs =>
    if k.kind = .profiles then
      match loadOne e k bs with
      | none => none
      | some x => (loadProfiles e fs).map (x.toList ++ ·)
    else loadProfiles e fs

/-- `load_router_infos` (config.rs:891-928). -/
def loadInfos (fs : FS) : List Bytes :=
  (fs.files.filter (·.1.kind = .netDb)).map (·.2)

/-- A batch, stored completely or stopped after a number of changes. Not in the code: the events that the theorems quantify over. -/
structure Op where
  routers : List Router
  stop : Option Nat := none

/-- Not in the code: one event, handled by the definitions above. -/
def step (e : Env) (fs : FS) (o : Op) : FS :=
  match o.stop with
  | none => fs.applyAll (save e fs o.routers)
  | some n => fs.applyAll ((save e fs o.routers).take n)

/-- Not in the code: a fold of the steps. -/
def run (e : Env) (fs : FS) (os : List Op) : FS := os.foldl (step e) fs

end Emissary.Storage
