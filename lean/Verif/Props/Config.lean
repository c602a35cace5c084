import Verif.Model.Config
/-!
# C214 to C216: arguments and configuration file
-/
namespace Emissary.Config

/-! ## C214: which value is used -/

/-- Every argument that was given has its effect. A section that the file does not have is not made by
the arguments about port forwarding and the interface, which say how it behaves, not that it is on. -/
structure Asked (a : Args) (c : Config R) : Prop where
  floodfill : a.floodfill = some true → c.floodfill = true
  insecure : a.insecure = some true → c.insecure = true
  allowLocal : a.allowLocal = some true → c.allowLocal = true
  noMetrics : a.disableMetrics = some true → c.metrics = none
  metrics : ∀ p, a.metricsPort = some p → a.disableMetrics = some false → c.metrics = some p
  caps : ∀ x, a.caps = some x → c.caps = some x
  netId : ∀ x, a.netId = some x → c.netId = some x
  log : ∀ x, a.log = some x → c.log = some x
  noReseed : a.disableReseed = some true → c.reseed = none
  hosts : ∀ hs, a.reseedHosts = some hs → a.disableReseed ≠ some true → ∃ r, c.reseed = some r ∧ r.hosts = some hs
  threshold : ∀ t, a.reseedThreshold = some t → a.disableReseed ≠ some true → ∃ r, c.reseed = some r ∧ r.threshold = t
  httpPort : ∀ p, a.httpPort = some p → ∃ h, c.http = some h ∧ h.port = p
  httpHost : ∀ s, a.httpHost = some s → ∃ h, c.http = some h ∧ h.host = s
  inLen : ∀ n, a.exploratory.inLen = some n → ∃ x, c.exploratory = some x ∧ x.inLen = some n
  inCount : ∀ n, a.exploratory.inCount = some n → ∃ x, c.exploratory = some x ∧ x.inCount = some n
  outLen : ∀ n, a.exploratory.outLen = some n → ∃ x, c.exploratory = some x ∧ x.outLen = some n
  outCount : ∀ n, a.exploratory.outCount = some n → ∃ x, c.exploratory = some x ∧ x.outCount = some n
  noTransit : a.disableTransit = some true → c.transit = none
  transit : ∀ n, a.maxTransit = some n → a.disableTransit ≠ some true → c.transit = some (some n)
  noUpnp : a.disableUpnp = some true → ∀ f, c.forwarding = some f → f.upnp = false
  noNatPmp : a.disableNatPmp = some true → ∀ f, c.forwarding = some f → f.natPmp = false
  name : ∀ n, a.upnpName = some n → ∀ f, c.forwarding = some f → f.name = n
  noUi : a.disableUi = some true → c.ui = none
  theme : ∀ t, a.theme = some t → ∀ u, c.ui = some u → u.theme = t
  refresh : ∀ n, a.refresh = some n → ∀ u, c.ui = some u → u.refresh = n

/-- What no argument is about is as in the file `f`. -/
structure Kept (a : Args) (f c : Config R) : Prop where
  rest : c.rest = f.rest
  clients : c.clients = f.clients
  servers : c.servers = f.servers
  floodfill : a.floodfill ≠ some true → c.floodfill = f.floodfill
  insecure : a.insecure ≠ some true → c.insecure = f.insecure
  allowLocal : a.allowLocal ≠ some true → c.allowLocal = f.allowLocal
  metrics : a.disableMetrics ≠ some true → a.metricsPort = none → c.metrics = f.metrics
  caps : a.caps = none → c.caps = f.caps
  netId : a.netId = none → c.netId = f.netId
  log : a.log = none → c.log = f.log
  hosts : a.disableReseed ≠ some true → a.reseedHosts = none → ∀ r, f.reseed = some r →
    ∃ r', c.reseed = some r' ∧ r'.hosts = r.hosts
  threshold : a.disableReseed ≠ some true → a.reseedThreshold = none → ∀ r, f.reseed = some r →
    ∃ r', c.reseed = some r' ∧ r'.threshold = r.threshold
  noReseed : a.reseedHosts = none → a.reseedThreshold = none → f.reseed = none → c.reseed = none
  httpPort : a.httpPort = none → ∀ h, f.http = some h → ∃ h', c.http = some h' ∧ h'.port = h.port
  httpHost : a.httpHost = none → ∀ h, f.http = some h → ∃ h', c.http = some h' ∧ h'.host = h.host
  noHttp : a.httpPort = none → a.httpHost = none → f.http = none → c.http = none
  exploratory : ∃ x', c.exploratory = some x' ∧
    (a.exploratory.inLen = none → x'.inLen = f.exploratory.bind (·.inLen)) ∧
    (a.exploratory.inCount = none → x'.inCount = f.exploratory.bind (·.inCount)) ∧
    (a.exploratory.outLen = none → x'.outLen = f.exploratory.bind (·.outLen)) ∧
    (a.exploratory.outCount = none → x'.outCount = f.exploratory.bind (·.outCount))
  transit : a.disableTransit ≠ some true → a.maxTransit = none → c.transit = f.transit
  noForwarding : f.forwarding = none → c.forwarding = none
  upnp : ∀ w, f.forwarding = some w → ∃ w', c.forwarding = some w' ∧ (a.disableUpnp ≠ some true → w'.upnp = w.upnp) ∧
    (a.disableNatPmp ≠ some true → w'.natPmp = w.natPmp) ∧ (a.upnpName = none → w'.name = w.name)
  noUi : f.ui = none → c.ui = none
  ui : a.disableUi ≠ some true → ∀ u, f.ui = some u → ∃ u', c.ui = some u' ∧ (a.theme = none → u'.theme = u.theme) ∧
    (a.refresh = none → u'.refresh = u.refresh)

/-- **C214**, in part: every argument has its effect, if the address and the port of the HTTP proxy are
given together or the file has the other one. -/
theorem C214_asked_partial (f : Config R) (a : Args) (hh : f.http ≠ none ∨ (a.httpPort = none ↔ a.httpHost = none)) :
    Asked a (merge f a) := by
  constructor
  case httpPort =>
    intro p hp
    simp only [merge, mergeHttp]
    cases hf : f.http with
    | some c => exact ⟨_, rfl, by simp [hp]⟩
    | none =>
      cases hs : a.httpHost with
      | none => rw [hf, hs] at hh; simp [hp] at hh
      | some s => simp only [hp]; exact ⟨_, rfl, rfl⟩
  case httpHost =>
    intro s hs
    simp only [merge, mergeHttp]
    cases hf : f.http with
    | some c => exact ⟨_, rfl, by simp [hs]⟩
    | none =>
      cases hp : a.httpPort with
      | none => rw [hf, hs] at hh; simp [hp] at hh
      | some s => simp only [hs]; exact ⟨_, rfl, rfl⟩
  case hosts =>
    intro hs h1 h2
    simp only [merge, mergeReseed, h1, if_neg h2]
    cases f.reseed <;> cases a.reseedThreshold <;> exact ⟨_, rfl, rfl⟩
  case threshold =>
    intro t h1 h2
    simp only [merge, mergeReseed, h1, if_neg h2]
    cases f.reseed <;> cases a.reseedHosts <;> exact ⟨_, rfl, rfl⟩
  case inLen => intro n h; simp only [merge, mergeExploratory]; cases f.exploratory <;> exact ⟨_, rfl, by simp [h]⟩
  case inCount => intro n h; simp only [merge, mergeExploratory]; cases f.exploratory <;> exact ⟨_, rfl, by simp [h]⟩
  case outLen => intro n h; simp only [merge, mergeExploratory]; cases f.exploratory <;> exact ⟨_, rfl, by simp [h]⟩
  case outCount => intro n h; simp only [merge, mergeExploratory]; cases f.exploratory <;> exact ⟨_, rfl, by simp [h]⟩
  case noUi => intro h; simp only [merge, mergeUi]; cases f.ui <;> simp [h]
  case theme => intro t h u; simp only [merge, mergeUi]; cases f.ui <;> simp; rintro _ rfl; simp [h]
  case refresh => intro t h u; simp only [merge, mergeUi]; cases f.ui <;> simp; rintro _ rfl; simp [h]
  case noUpnp => intro h w; simp only [merge, mergeForwarding]; cases f.forwarding <;> simp; rintro rfl; simp [h]
  case noNatPmp => intro h w; simp only [merge, mergeForwarding]; cases f.forwarding <;> simp; rintro rfl; simp [h]
  case name => intro n h w; simp only [merge, mergeForwarding]; cases f.forwarding <;> simp; rintro rfl; simp [h]
  case noMetrics => intro h; simp [merge, mergeMetrics, h]
  case metrics => intro p h1 h2; simp [merge, mergeMetrics, h1, h2]
  case noReseed => intro h; simp [merge, mergeReseed, h]
  case noTransit => intro h; simp [merge, mergeTransit, h]
  case transit => intro n h1 h2; simp [merge, mergeTransit, h1, h2]
  all_goals first
    | (intro h; simp [merge, h])
    | (intro x h; simp [merge, h])

/-- **C214**, violated: the port of the HTTP proxy alone is dropped if the file has no HTTP proxy; so
is its address. -/
theorem C214_http_violated (f : Config R) (a : Args) (hf : f.http = none)
    (h : a.httpPort = none ∨ a.httpHost = none) : (merge f a).http = none := by
  simp only [merge, mergeHttp, hf]
  rcases h with h | h
  · simp [h]
  · rw [h]; cases a.httpPort <;> rfl

/-- **C214**: what no argument is about is as in the file. -/
theorem C214_kept (f : Config R) (a : Args) : Kept a f (merge f a) := by
  constructor
  case rest => rfl
  case clients => rfl
  case servers => rfl
  case floodfill => intro h; simp [merge, h]
  case insecure => intro h; simp [merge, h]
  case allowLocal => intro h; simp [merge, h]
  case metrics =>
    intro h1 h2
    simp only [merge, mergeMetrics, h2]
    cases h : a.disableMetrics with
    | none => rfl
    | some b => cases b with
      | false => rfl
      | true => exact absurd h h1
  case caps => intro h; simp [merge, h]
  case netId => intro h; simp [merge, h]
  case log => intro h; simp [merge, h]
  case hosts =>
    intro h1 h2 r hr
    simp only [merge, mergeReseed, h2, if_neg h1, hr]
    cases a.reseedThreshold <;> exact ⟨_, rfl, rfl⟩
  case threshold =>
    intro h1 h2 r hr
    simp only [merge, mergeReseed, h2, if_neg h1, hr]
    cases a.reseedHosts <;> exact ⟨_, rfl, rfl⟩
  case noReseed => intro h1 h2 h3; simp [merge, mergeReseed, h1, h2, h3]
  case httpPort => intro h1 h hf; simp only [merge, mergeHttp, hf]; exact ⟨_, rfl, by simp [h1]⟩
  case httpHost => intro h1 h hf; simp only [merge, mergeHttp, hf]; exact ⟨_, rfl, by simp [h1]⟩
  case noHttp => intro h1 h2 h3; simp [merge, mergeHttp, h1, h3]
  case exploratory =>
    simp only [merge, mergeExploratory]
    cases f.exploratory with
    | none => exact ⟨_, rfl, by simp⟩
    | some x => exact ⟨_, rfl, by simp; refine ⟨?_, ?_, ?_, ?_⟩ <;> (intro h; simp [h])⟩
  case transit => intro h1 h2; simp [merge, mergeTransit, h1, h2]
  case noForwarding => intro h; simp [merge, mergeForwarding, h]
  case upnp =>
    intro w hw
    simp only [merge, mergeForwarding, hw, Option.map_some]
    refine ⟨_, rfl, ?_, ?_, ?_⟩ <;> (intro h; simp [h])
  case noUi => intro h; simp [merge, mergeUi, h]
  case ui =>
    intro h1 u hu
    simp only [merge, mergeUi, hu, if_neg h1]
    refine ⟨_, rfl, ?_, ?_⟩ <;> (intro h; simp [h])

/-! ## C215: the tunnels of the configuration -/

theorem mem_toSet [DecidableEq α] (x : α) (l : List α) : x ∈ toSet l ↔ x ∈ l := by
  induction l with
  | nil => simp [toSet]
  | cons y l ih =>
    unfold toSet
    split
    · next h =>
      rw [ih, List.mem_cons]
      refine ⟨.inr, ?_⟩
      rintro (rfl | hx)
      · exact ih.1 h
      · exact hx
    · simp [ih]

theorem toSet_le [DecidableEq α] (l : List α) : (toSet l).length ≤ l.length := by
  induction l with
  | nil => simp [toSet]
  | cons y l ih =>
    unfold toSet
    split <;> simp <;> omega

theorem toSet_nodup [DecidableEq α] (l : List α) : (toSet l).length = l.length ↔ l.Nodup := by
  induction l with
  | nil => simp [toSet]
  | cons y l ih =>
    have hle := toSet_le l
    unfold toSet
    split
    · next h =>
      rw [mem_toSet] at h
      simp only [List.length_cons, List.nodup_cons]
      constructor
      · intro h'; omega
      · rintro ⟨h', -⟩; exact absurd h h'
    · next h =>
      rw [mem_toSet] at h
      simp only [List.length_cons, List.nodup_cons, Nat.add_right_cancel_iff, ih]
      exact ⟨fun h' => ⟨h, h'⟩, fun h' => h'.2⟩

/-- **C215**: a configuration is accepted exactly if no two client tunnels have the same name or the same
port and no two server tunnels have the same name, port or file. -/
theorem C215_distinct (cs : List Client) (ss : List Server) :
    check cs ss = true ↔
      (cs.map (·.name)).Nodup ∧ (cs.map (·.port)).Nodup ∧
      (ss.map (·.name)).Nodup ∧ (ss.map (·.port)).Nodup ∧ (ss.map (·.path)).Nodup := by
  have key : ∀ {α β : Type} [DecidableEq β] (l : List α) (g : α → β),
      ((toSet (l.map g)).length = l.length ↔ (l.map g).Nodup) := by
    intro α β _ l g
    rw [← toSet_nodup, List.length_map]
  unfold check
  simp only [Bool.and_eq_true, decide_eq_true_eq, key, and_assoc]

/-! ## C216: when routers are downloaded -/

/-- The number of known routers below which more are downloaded, from the argument, from the file, or 25
if only the servers were given. -/
def limit (f : Config R) (a : Args) : Option Nat :=
  match a.reseedThreshold, f.reseed, a.reseedHosts with
  | some t, _, _ => some t
  | none, some r, _ => some r.threshold
  | none, none, some _ => some 25
  | none, none, none => none

/-- **C216**: routers are downloaded exactly if that is forced, or it is not disabled and fewer are known
than the limit. -/
theorem C216_reseed (f : Config R) (a : Args) (known : Nat) :
    shouldReseed (merge f a) a known = true ↔
      a.forceReseed = some true ∨ (a.disableReseed ≠ some true ∧ ∃ t, limit f a = some t ∧ known < t) := by
  have hforce : (a.forceReseed.getD false = true) ↔ a.forceReseed = some true := by
    cases a.forceReseed <;> simp
  unfold shouldReseed limit
  simp only [merge, mergeReseed, Bool.or_eq_true, hforce]
  rw [or_comm]
  refine or_congr Iff.rfl ?_
  by_cases hd : a.disableReseed = some true
  · simp [hd]
  · simp only [if_neg hd]
    cases a.reseedThreshold <;> cases f.reseed <;> cases a.reseedHosts <;> simp [hd]

/-! ## The cases occur -/

def sample : Config Nat :=
  { rest := 1, floodfill := false, insecure := false, allowLocal := false, metrics := some 7788, caps := none,
    netId := none, log := none, reseed := some ⟨none, 25⟩, http := some ⟨4444, "127.0.0.1"⟩, exploratory := none,
    transit := some (some 1000), forwarding := some ⟨true, true, "emissary"⟩, ui := some ⟨.dark, 5⟩,
    clients := [⟨"a", none, 1, "x", none⟩, ⟨"b", none, 2, "x", none⟩], servers := [] }

def sampleArgs : Args := { httpPort := some 80, reseedThreshold := some 3, disableUpnp := some true, maxTransit := some 5 }

example : (merge sample sampleArgs).http = some ⟨80, "127.0.0.1"⟩ ∧ (merge sample sampleArgs).reseed = some ⟨none, 3⟩ ∧
    (merge sample sampleArgs).forwarding = some ⟨true, false, "emissary"⟩ ∧
    (merge sample sampleArgs).transit = some (some 5) := by decide
example := C214_asked_partial sample sampleArgs (.inl (by decide))
example := C214_http_violated { sample with http := none } sampleArgs rfl (.inr rfl)
example : check sample.clients sample.servers = true := by decide
example : check (⟨"a", none, 9, "y", none⟩ :: sample.clients) [] = false := by decide
example : shouldReseed (merge sample sampleArgs) sampleArgs 2 = true ∧
    shouldReseed (merge sample sampleArgs) sampleArgs 3 = false := by decide

end Emissary.Config
