import Verif.Model.PortMapper
/-!
# C220 to C223: port forwarding
-/
namespace Emissary.PortMapper
open scoped List

/-! ## Specification -/

/-- The operation ends well within its three windows. -/
def Works (f : Fut α) (a : α) : Prop := ∃ w, w < 3 ∧ f = .after w (some a)

/-- The operation takes too long. -/
def Hangs (f : Fut α) : Prop := f = .never ∨ ∃ w r, 3 ≤ w ∧ f = .after w r

/-- The operation ends with an error, early enough to be tried again. -/
def Errs (f : Fut α) : Prop := ∃ w, w < 2 ∧ f = .after w none

theorem rounds_never (n : Nat) : rounds (α := α) n .never = .failed := by
  induction n with
  | zero => rfl
  | succ n ih => simp [rounds, ih]

theorem rounds_after (n : Nat) : ∀ (w : Nat) (r : Option α), n ≤ w → rounds n (.after w r) = .failed := by
  induction n with
  | zero => intro w r _; rfl
  | succ n ih =>
    intro w r h
    cases w with
    | zero => omega
    | succ w => simp only [rounds]; exact ih w r (by omega)

theorem retried_works {f : Fut α} {a : α} (h : Works f a) : retried f = .ok a := by
  obtain ⟨w, hw, rfl⟩ := h
  unfold retried
  rcases w with _ | _ | _ | w
  · rfl
  · rfl
  · rfl
  · omega

theorem retried_hangs {f : Fut α} (h : Hangs f) : retried f = .failed := by
  rcases h with rfl | ⟨w, r, hw, rfl⟩
  · exact rounds_never 3
  · exact rounds_after 3 w r hw

theorem retried_errs {f : Fut α} (h : Errs f) : retried f = .panics := by
  obtain ⟨w, hw, rfl⟩ := h
  unfold retried
  rcases w with _ | _ | w
  · rfl
  · rfl
  · omega

/-! ## C220: what is mapped -/

/-- The mapping is for a transport: NTCP2 runs over TCP and SSU2 over UDP. -/
def ForTransport (c : Ports) (p : Proto) (ext int : Nat) : Prop :=
  ext = int ∧ ((p = .tcp ∧ c.ntcp2 = some ext) ∨ (p = .udp ∧ c.ssu2 = some ext))

/-- **C220**, violated: NAT-PMP never maps a UDP port, whatever the configuration and whatever
happens: SSU2 cannot be reached. -/
theorem C220_udp_violated (c : Ports) (client f g : Fut Unit) (a : Fut (Option Addr)) (es : List Ev) (ext int life : Nat) :
    Out.map .udp ext int life ∉ natRun c client f g a es := by
  have hsw : Out.map .udp ext int life ∉ switch c := by unfold switch; split <;> simp
  have h1 : ∀ f, Out.map .udp ext int life ∉ (natNtcp2 c f).1 := by
    intro f; unfold natNtcp2; split <;> simp
  have h2 : ∀ f, Out.map .udp ext int life ∉ (natSsu2 c f).1 := by
    intro f; unfold natSsu2; split <;> simp
  have hloop : ∀ es cur, Out.map .udp ext int life ∉ natLoop c cur es := by
    intro es
    induction es with
    | nil => intro cur; simp [natLoop]
    | cons e es ih =>
      intro cur
      cases e with
      | shutdown => simp [natLoop]
      | dropped => simp [natLoop]
      | address f =>
        simp only [natLoop, List.mem_cons, reduceCtorEq, false_or]
        split
        · simp
        · exact ih _
        · exact ih _
        · split
          · simp only [List.mem_cons, reduceCtorEq, false_or]; exact ih _
          · exact ih _
      | remap f g =>
        simp only [natLoop]
        split
        · simp [h1]
        · split <;> simp [h1, h2, ih]
  unfold natRun
  split
  · simp
  · exact hsw
  · dsimp only
    split
    · simp [h1]
    · simp [h1, hsw]
    · split
      · simp [h1, h2]
      · simp [h1, h2, hsw]
      · simp only [List.mem_append, List.mem_cons, reduceCtorEq, false_or, not_or]
        refine ⟨⟨h1 _, h2 _⟩, ?_⟩
        split
        · simp
        · exact hsw
        · exact hsw
        · simp only [List.mem_cons, reduceCtorEq, false_or]; exact hloop _ _

theorem upnpLoop_map (c : Ports) (es : List Ev) (p : Proto) (ext int life : Nat) : ∀ cur, Out.map p ext int life ∉ upnpLoop c cur es := by
  have hun : Out.map p ext int life ∉ upnpUnmap c := by
    unfold upnpUnmap; cases c.ssu2 <;> cases c.ntcp2 <;> simp
  induction es with
  | nil => intro cur; simp [upnpLoop]
  | cons e es ih =>
    intro cur
    cases e with
    | shutdown => simp [upnpLoop, hun]
    | dropped => simp [upnpLoop, hun]
    | address f =>
      simp only [upnpLoop, List.mem_cons, reduceCtorEq, false_or]
      split
      · simp
      · exact ih _
      · exact ih _
      · split
        · simp only [List.mem_cons, reduceCtorEq, false_or]; exact ih _
        · exact ih _
    | remap f g => simp only [upnpLoop]; exact ih _

theorem upnpRun_map (c : Ports) (found : Bool) (f g : Fut Unit) (a : Fut (Option Addr)) (es : List Ev) {p : Proto}
    {ext int life : Nat} (h : Out.map p ext int life ∈ upnpRun c found f g a es) : ForTransport c p ext int := by
  have h1 : ∀ x, Out.map p ext int life ∈ (upnpMap .tcp c.ntcp2 x).1 → ForTransport c p ext int := by
    intro x hx
    unfold upnpMap at hx
    split at hx
    · simp at hx
    · next n hn =>
      simp at hx
      obtain ⟨rfl, rfl, rfl, -⟩ := hx
      exact ⟨rfl, .inl ⟨rfl, hn⟩⟩
  have h2 : ∀ x, Out.map p ext int life ∈ (upnpMap .udp c.ssu2 x).1 → ForTransport c p ext int := by
    intro x hx
    unfold upnpMap at hx
    split at hx
    · simp at hx
    · next n hn =>
      simp at hx
      obtain ⟨rfl, rfl, rfl, -⟩ := hx
      exact ⟨rfl, .inr ⟨rfl, hn⟩⟩
  unfold upnpRun at h
  split at h
  · simp at h
  · dsimp only at h
    split at h
    · simp at h; exact h1 _ h
    · split at h
      · simp at h
        rcases h with h | h
        · exact h1 _ h
        · exact h2 _ h
      · simp only [List.mem_append, List.mem_cons, reduceCtorEq, false_or] at h
        rcases h with (h | h) | h
        · exact h1 _ h
        · exact h2 _ h
        · exfalso
          revert h
          split
          · simp
          · exact upnpLoop_map c es _ _ _ _ _
          · exact upnpLoop_map c es _ _ _ _ _
          · simp only [List.mem_cons, reduceCtorEq, false_or]; exact upnpLoop_map c es _ _ _ _ _

/-- **C220**, in part: UPnP maps only the ports of the transports, with their protocols. -/
theorem C220_upnp_partial (c : Ports) (found : Bool) (f g : Fut Unit) (a : Fut (Option Addr)) (es : List Ev) :
    ∀ p ext int life, Out.map p ext int life ∈ upnpRun c found f g a es → ForTransport c p ext int :=
  fun _ _ _ _ h => upnpRun_map c found f g a es h

theorem upnpLoop_acked (c : Ports) (es : List Ev) : ∀ cur, Out.ack ∈ upnpLoop c cur es →
    ∀ p ext, ForTransport c p ext ext → Out.unmap p ext ∈ upnpLoop c cur es := by
  induction es with
  | nil => intro cur h; simp [upnpLoop] at h
  | cons e es ih =>
    intro cur h p ext ht
    cases e with
    | shutdown =>
      simp only [upnpLoop, upnpUnmap, List.mem_append]
      rcases ht.2 with ⟨rfl, hp⟩ | ⟨rfl, hp⟩ <;> simp [hp]
    | dropped =>
      simp only [upnpLoop, upnpUnmap] at h
      cases hs : c.ssu2 <;> cases hn : c.ntcp2 <;> simp [hs, hn] at h
    | address f =>
      simp only [upnpLoop, List.mem_cons, reduceCtorEq, false_or] at h ⊢
      split at h
      · simp at h
      · exact ih _ h p ext ht
      · exact ih _ h p ext ht
      · split at h
        · next hne => rw [if_pos hne]; simp only [List.mem_cons, reduceCtorEq, false_or] at h ⊢; exact ih _ h p ext ht
        · next hne => rw [if_neg hne]; exact ih _ h p ext ht
    | remap f g => simp only [upnpLoop] at h ⊢; exact ih _ h p ext ht

/-- **C220**, in part: when UPnP answers the request to shut down, it has asked the gateway to remove
every mapping it made. -/
theorem C220_removed_partial (c : Ports) (found : Bool) (f g : Fut Unit) (a : Fut (Option Addr)) (es : List Ev)
    (hack : Out.ack ∈ upnpRun c found f g a es) {p : Proto} {ext int life : Nat}
    (h : Out.map p ext int life ∈ upnpRun c found f g a es) : Out.unmap p ext ∈ upnpRun c found f g a es := by
  have ht := upnpRun_map c found f g a es h
  obtain ⟨rfl, _⟩ := id ht
  clear h
  have h1 : ∀ p n x, Out.ack ∉ (upnpMap p n x).1 := by
    intro p n x; unfold upnpMap; split <;> simp
  unfold upnpRun at hack ⊢
  split at hack
  · simp at hack
  · dsimp only at hack ⊢
    rw [if_neg (by assumption)]
    split at hack
    · simp [h1] at hack
    · split at hack
      · simp [h1] at hack
      · simp only [List.mem_append, List.mem_cons, reduceCtorEq, false_or, h1] at hack ⊢
        right
        split at hack
        · simp at hack
        · exact upnpLoop_acked c es _ hack p ext ht
        · exact upnpLoop_acked c es _ hack p ext ht
        · simp only [List.mem_cons, reduceCtorEq, false_or] at hack ⊢
          exact upnpLoop_acked c es _ hack p ext ht

/-! ## C221: UPnP takes over -/

/-- **C221**, violated: if the first thing NAT-PMP does, finding the gateway, ends with an error within
ten seconds, the port mapper panics and UPnP is never tried. -/
theorem C221_gateway_violated (c : Ports) (client f g : Fut Unit) (a : Fut (Option Addr)) (es : List Ev) (h : Errs client) :
    natRun c client f g a es = [.panic] := by
  unfold natRun
  rw [retried_errs h]

/-- **C221**, violated: so does an error in answer to the mapping of the NTCP2 port. -/
theorem C221_mapping_violated (c : Ports) (client f g : Fut Unit) (a : Fut (Option Addr)) (es : List Ev) {n : Nat}
    (hc : Works client ()) (hn : c.ntcp2 = some n) (h : Errs f) :
    natRun c client f g a es = [.map .tcp n n 3600, .panic] := by
  unfold natRun natNtcp2
  rw [retried_works hc, hn]
  dsimp only
  rw [retried_errs h]
  rfl

/-- **C221**, in part: if one of the four operations takes too long, and those before it end well, UPnP
is started if it is enabled. -/
theorem C221_timeout_partial (c : Ports) (hu : c.upnp = true) (client f g : Fut Unit) (a : Fut (Option Addr)) (es : List Ev)
    (h : Hangs client ∨ (Works client () ∧ (
      (c.ntcp2 ≠ none ∧ Hangs f) ∨ ((c.ntcp2 = none ∨ Works f ()) ∧ (
        (c.ssu2 ≠ none ∧ Hangs g) ∨ ((c.ssu2 = none ∨ Works g ()) ∧ Hangs a)))))) :
    Out.startUpnp ∈ natRun c client f g a es := by
  have hs : switch c = [.startUpnp] := by unfold switch; rw [if_pos hu]
  unfold natRun
  rcases h with h | ⟨hc, h⟩
  · rw [retried_hangs h, hs]; simp
  · rw [retried_works hc]
    have f1 : c.ntcp2 ≠ none → Hangs f → (natNtcp2 c f).2 = some .failed := by
      intro hn hf
      unfold natNtcp2
      cases hn' : c.ntcp2 with
      | none => exact absurd hn' hn
      | some n => dsimp only; rw [retried_hangs hf]
    have f2 : c.ssu2 ≠ none → Hangs g → (natSsu2 c g).2 = some .failed := by
      intro hn hf
      unfold natSsu2
      cases hn' : c.ssu2 with
      | none => exact absurd hn' hn
      | some n => dsimp only; rw [retried_hangs hf]
    have w1 : c.ntcp2 = none ∨ Works f () → (natNtcp2 c f).2 = none ∨ (natNtcp2 c f).2 = some (.ok ()) := by
      intro h
      unfold natNtcp2
      cases hn' : c.ntcp2 with
      | none => exact .inl rfl
      | some n =>
        rcases h with h | h
        · rw [hn'] at h; cases h
        · right; dsimp only; rw [retried_works h]
    have w2 : c.ssu2 = none ∨ Works g () → (natSsu2 c g).2 = none ∨ (natSsu2 c g).2 = some (.ok ()) := by
      intro h
      unfold natSsu2
      cases hn' : c.ssu2 with
      | none => exact .inl rfl
      | some n =>
        rcases h with h | h
        · rw [hn'] at h; cases h
        · right; dsimp only; rw [retried_works h]
    rcases h with ⟨hn, hf⟩ | ⟨hf, ⟨hn, hg⟩ | ⟨hg, ha⟩⟩
    · simp [f1 hn hf, hs]
    · rcases w1 hf with h | h <;> simp [h, f2 hn hg, hs]
    · rcases w1 hf with h | h <;> rcases w2 hg with h' | h' <;> simp [h, h', retried_hangs ha, hs]

/-! ## C222: external addresses -/

/-- The addresses that the router is told. -/
def reports (os : List Out) : List Addr := os.filterMap fun o => match o with | .report a => some a | _ => none

/-- No operation ends with an early error. -/
def Calm : Ev → Prop
  | .address f => retried f ≠ .panics
  | .remap f g => retried f ≠ .panics ∧ retried g ≠ .panics
  | _ => True

/-- The addresses that the gateway gave until the router shut down. -/
def found : List Ev → List Addr
  | [] => []
  | .shutdown :: _ => []
  | .dropped :: _ => []
  | .address f :: es => match retried f with
    | .ok (some a) => a :: found es
    | _ => found es
  | .remap _ _ :: es => found es

/-- No two neighbours are equal. -/
def NoRepeat : List Addr → Prop
  | a :: b :: l => a ≠ b ∧ NoRepeat (b :: l)
  | _ => True

theorem reports_append (a b : List Out) : reports (a ++ b) = reports a ++ reports b := by simp [reports]

theorem natNtcp2_reports (c : Ports) (f : Fut Unit) : reports (natNtcp2 c f).1 = [] := by
  unfold natNtcp2; split <;> rfl

theorem natSsu2_reports (c : Ports) (f : Fut Unit) : reports (natSsu2 c f).1 = [] := by
  unfold natSsu2; split <;> rfl

theorem remap_eq (c : Ports) (f g : Fut Unit) (h : Calm (.remap f g)) (cur : Addr) (es : List Ev) :
    reports (natLoop c cur (.remap f g :: es)) = reports (natLoop c cur es) := by
  have h1 : (natNtcp2 c f).2 ≠ some .panics := by
    unfold natNtcp2; split
    · simp
    · simpa using h.1
  have h2 : (natSsu2 c g).2 ≠ some .panics := by
    unfold natSsu2; split
    · simp
    · simpa using h.2
  simp only [natLoop]
  rw [reports_append, reports_append, natNtcp2_reports, natSsu2_reports]
  rfl

/-- **C222**, in part: from the first address on, NAT-PMP tells the router every change of the address
and nothing else: no address twice in a row, only addresses that the gateway gave, and after any
events the last address told is the last one the gateway gave. -/
theorem C222_natpmp_partial (c : Ports) (es : List Ev) (hc : ∀ e ∈ es, Calm e) : ∀ cur : Addr,
    NoRepeat (cur :: reports (natLoop c cur es)) ∧ reports (natLoop c cur es) <+ found es ∧
    (cur :: reports (natLoop c cur es)).getLast? = (cur :: found es).getLast? := by
  induction es with
  | nil => intro cur; exact ⟨trivial, .slnil, rfl⟩
  | cons e es ih =>
    intro cur
    have ih := ih fun x hx => hc x (by simp [hx])
    cases e with
    | shutdown => exact ⟨trivial, .slnil, rfl⟩
    | dropped => exact ⟨trivial, .slnil, rfl⟩
    | remap f g =>
      rw [remap_eq c f g (hc _ (by simp))]
      exact ih cur
    | address f =>
      have hcf : retried f ≠ .panics := hc (.address f) (by simp)
      simp only [natLoop, found]
      cases hf : retried f with
      | panics => exact absurd hf hcf
      | failed => exact ih cur
      | ok x =>
        cases x with
        | none => exact ih cur
        | some a =>
          obtain ⟨i1, i2, i3⟩ := ih a
          dsimp only
          by_cases ha : a = cur
          · subst ha
            rw [if_neg (by simp)]
            exact ⟨i1, i2.trans (List.sublist_cons_self _ _), by rw [List.getLast?_cons_cons]; exact i3⟩
          · rw [if_pos ha]
            refine ⟨⟨fun h => ha h.symm, i1⟩, i2.cons_cons a, ?_⟩
            show (cur :: a :: reports (natLoop c a es)).getLast? = _
            rw [List.getLast?_cons_cons, List.getLast?_cons_cons]
            exact i3

/-- **C222**, in part: the same for UPnP. -/
theorem C222_upnp_partial (c : Ports) (es : List Ev) (hc : ∀ e ∈ es, Calm e) : ∀ cur : Option Addr,
    NoRepeat (cur.toList ++ reports (upnpLoop c cur es)) ∧ reports (upnpLoop c cur es) <+ found es ∧
    (cur.toList ++ reports (upnpLoop c cur es)).getLast? = (cur.toList ++ found es).getLast? := by
  have hun : reports (upnpUnmap c) = [] := by
    unfold upnpUnmap; cases c.ssu2 <;> cases c.ntcp2 <;> rfl
  induction es with
  | nil => intro cur; cases cur <;> exact ⟨trivial, .slnil, rfl⟩
  | cons e es ih =>
    intro cur
    have ih := ih fun x hx => hc x (by simp [hx])
    cases e with
    | shutdown =>
      simp only [upnpLoop, reports_append, hun, found]
      cases cur <;> exact ⟨trivial, .slnil, rfl⟩
    | dropped =>
      simp only [upnpLoop, reports_append, hun, found]
      cases cur <;> exact ⟨trivial, .slnil, rfl⟩
    | remap f g => exact ih cur
    | address f =>
      have hcf : retried f ≠ .panics := hc (.address f) (by simp)
      simp only [upnpLoop, found]
      cases hf : retried f with
      | panics => exact absurd hf hcf
      | failed => exact ih cur
      | ok x =>
        cases x with
        | none => exact ih cur
        | some a =>
          obtain ⟨i1, i2, i3⟩ := ih (some a)
          simp only [Option.toList_some, List.singleton_append] at i1 i3
          dsimp only
          by_cases ha : some a = cur
          · subst ha
            rw [if_neg (by simp)]
            refine ⟨i1, i2.trans (List.sublist_cons_self _ _), ?_⟩
            simp only [Option.toList_some, List.singleton_append, List.getLast?_cons_cons]
            exact i3
          · rw [if_pos ha]
            cases cur with
            | none => exact ⟨i1, i2.cons_cons a, i3⟩
            | some b =>
              refine ⟨⟨fun h => ha (by rw [h]), i1⟩, i2.cons_cons a, ?_⟩
              show (b :: a :: reports (upnpLoop c (some a) es)).getLast? = _
              simp only [Option.toList_some, List.singleton_append, List.getLast?_cons_cons]
              exact i3

/-- **C222**, violated: once an answer is an early error, nothing is told to the router any more,
though the gateway answers again. -/
theorem C222_error_violated (c : Ports) (cur : Addr) (f : Fut (Option Addr)) (h : Errs f) (es : List Ev) :
    reports (natLoop c cur (.address f :: es)) = [] ∧ ∀ cur', reports (upnpLoop c cur' (.address f :: es)) = [] := by
  simp only [natLoop, upnpLoop, retried_errs h]
  exact ⟨rfl, fun _ => rfl⟩

/-! ## C223: how often the gateway is asked -/

/-- Neighbours are at least `n` apart. -/
def Apart (n : Nat) : List Nat → Prop
  | a :: b :: l => a + n ≤ b ∧ Apart n (b :: l)
  | _ => True

/-- **C223**, in part: NAT-PMP asks five minutes after its start and again five minutes after every answer; so it leaves five minutes between two questions. -/
theorem C223_natpmp_partial (start : Nat) (ds : List Nat) : (natAsks start ds).length = ds.length ∧
    (∀ k < ds.length, (natAsks start ds)[k]? = some (start + 300 * (k + 1) + (ds.take k).sum)) ∧ Apart 300 (natAsks start ds) := by
  induction ds generalizing start with
  | nil => exact ⟨rfl, by simp, trivial⟩
  | cons d ds ih =>
    obtain ⟨h1, h2, h3⟩ := ih (start + refresh + d)
    refine ⟨by simp only [natAsks, List.length_cons, h1], ?_, ?_⟩
    · intro k hk
      cases k with
      | zero => rfl
      | succ k =>
        simp only [natAsks, List.getElem?_cons_succ, List.take_succ_cons, List.sum_cons]
        rw [h2 k (by simpa using hk)]
        exact congrArg some (by simp only [refresh]; omega)
    · cases ds with
      | nil => trivial
      | cons d' ds =>
        simp only [natAsks] at h3 ⊢
        exact ⟨by simp only [refresh]; omega, h3⟩

/-- **C223**, violated: after its first five minutes UPnP asks again as soon as it has an answer: it
asks `n` times within the time of `n - 1` answers, without any pause. -/
theorem C223_upnp_violated (deadline now : Nat) (h : now ≤ deadline) (ds : List Nat) (k : Nat) (hk : k < ds.length) :
    (upnpAsks deadline now ds)[k]? = some (deadline + (ds.take k).sum) := by
  have key : ∀ (ds : List Nat) (t k : Nat), deadline ≤ t → k < ds.length → (upnpAsks deadline t ds)[k]? = some (t + (ds.take k).sum) := by
    intro ds
    induction ds with
    | nil => intro t k _ hk; simp at hk
    | cons d ds ih =>
      intro t k ht hk
      simp only [upnpAsks, Nat.max_eq_left ht]
      cases k with
      | zero => simp
      | succ k =>
        simp only [List.getElem?_cons_succ, List.take_succ_cons, List.sum_cons]
        rw [ih (t + d) k (by omega) (by simpa using hk)]
        congr 1
        omega
  cases ds with
  | nil => simp at hk
  | cons d ds =>
    have := key (d :: ds) deadline k (Nat.le_refl _) hk
    simp only [upnpAsks, Nat.max_self] at this
    simp only [upnpAsks, Nat.max_eq_right h]
    exact this

/-! ## The cases occur -/

def samplePorts : Ports := ⟨true, true, some 25115, some 8888⟩
def good : Fut Unit := .after 0 (some ())
def addr (n : Nat) : Fut (Option Addr) := .after 1 (some (some n))

example : natRun samplePorts good good good (addr 5) [.address (addr 5), .address (addr 6), .remap good good, .shutdown] =
    [.map .tcp 25115 25115 3600, .map .tcp 8888 8888 3600, .ask, .report 5, .ask, .ask, .report 6,
     .map .tcp 25115 25115 3600, .map .tcp 8888 8888 3600, .ack, .ended] := by decide
example : upnpRun samplePorts true good good (addr 5) [.address (addr 6), .shutdown] =
    [.map .tcp 25115 25115 0, .map .udp 8888 8888 0, .ask, .report 5, .ask, .report 6,
     .unmap .udp 8888, .unmap .tcp 25115, .ack, .ended] := by decide
example : natRun samplePorts (.after 0 none) good good (addr 5) [] = [.panic] := by decide
example : natRun samplePorts .never good good (addr 5) [] = [.startUpnp] := by decide
example : natRun samplePorts good good (.after 7 none) (addr 5) [] =
    [.map .tcp 25115 25115 3600, .map .tcp 8888 8888 3600, .startUpnp] := by decide
example : upnpAsks 300 0 [1, 1, 1] = [300, 301, 302] := by decide
example : natAsks 0 [1, 1, 1] = [300, 601, 902] := by decide
example : ∀ e ∈ [Ev.address (addr 5), .remap good .never], Calm e := by
  intro e he
  simp at he
  rcases he with rfl | rfl
  · simp [Calm, retried, rounds, addr]
  · simp [Calm, retried, rounds, good]

end Emissary.PortMapper
