import Verif.Model.Net
import Verif.Props.RouterInfo
import Verif.Props.Util
/-!
# C229 to C234: dialling, local addresses, published addresses, and the sockets of the transports
-/
namespace Emissary.Net
open Emissary Emissary.Prim

/-! ## Specification -/

/-- The address of a router for a transport. -/
def addressOf (r : RouterInfo) : Transport → Option RouterAddress
  | .ntcp2 => r.addresses.ntcp2
  | .ssu2 => r.addresses.ssu2

/-- The length of the second key of an address: the IV of NTCP2, the introduction key of SSU2. -/
def ivLen : Transport → Nat
  | .ntcp2 => 16
  | .ssu2 => 32

/-- The option `k` of the address is the base64 text of `b`. -/
def Holds (C : Enc) (a : RouterAddress) (k : Str) (b : Bytes) : Prop := ∃ text, a.options.get k = some text ∧ C.unb64 text = some b

/-- The router can be reached over `t` at `ip` and `port`, where it proves that it has the key `key`. -/
def Reachable (C : Enc) (r : RouterInfo) (t : Transport) (ip : Bytes) (port : Nat) (key : Bytes) : Prop :=
  ∃ a iv, addressOf r t = some a ∧ a.socket = some (ip, port) ∧ Holds C a kS key ∧ key.length = 32 ∧
    Holds C a kI iv ∧ iv.length = ivLen t

/-- An IPv4 address in none of the private, loopback, documentation and reserved blocks. -/
def Public (ip : Bytes) : Prop := ∀ b ∈ Util.known, ¬ Util.InBlock (unbe ip) b

/-! A router for the examples: it can be reached at 9.9.9.9 over the transports given. -/
def Enc.sample : Enc := ⟨id, some, fun _ => List.replicate 32 7, id⟩
def sampleAddr (t : Transport) (ip : Bytes) : RouterAddress :=
  ⟨10, 0, t, [⟨kI, List.replicate (ivLen t) 3⟩, ⟨kS, List.replicate 32 7⟩], some (ip, 88)⟩
def sampleRouter (n2 s2 : Option Bytes) : RouterInfo :=
  { RouterInfo.sample with addresses := ⟨n2.map (sampleAddr .ntcp2), s2.map (sampleAddr .ssu2)⟩ }

/-! ## C229: dialling -/

theorem keyOf_some (C : Enc) (a : Option RouterAddress) (k : Str) (len : Nat) (b : Bytes) :
    keyOf C a k len = some b ↔ ∃ x, a = some x ∧ Holds C x k b ∧ b.length = len := by
  unfold keyOf Holds
  cases a with
  | none => simp
  | some x =>
    simp only [Option.some.injEq, exists_eq_left', bind, Option.bind]
    cases h : x.options.get k with
    | none => simp
    | some text =>
      simp only [Option.some.injEq, exists_eq_left']
      cases h' : C.unb64 text with
      | none => simp
      | some y =>
        simp only
        constructor
        · intro e; split at e
          · injection e with e; subst e; exact ⟨rfl, by assumption⟩
          · cases e
        · rintro ⟨e, hl⟩; injection e with e; subst e; rw [if_pos hl]

theorem dialNtcp2_to (C : Enc) (al : Bool) (r : RouterInfo) (t : Transport) (ip : Bytes) (port : Nat) (key : Bytes) :
    dialNtcp2 C al r = .dials t ip port key ↔ t = .ntcp2 ∧ Reachable C r .ntcp2 ip port key ∧
      ¬ (ip.length = 4 ∧ Util.isGlobal (unbe ip) = false ∧ al = false) := by
  unfold dialNtcp2
  constructor
  · intro h
    split at h
    · cases h
    next key' hk =>
    split at h
    · cases h
    next iv hi =>
    split at h
    · cases h
    next ip' port' hs =>
    split at h
    · cases h
    next hl =>
    injection h with e1 e2 e3 e4
    subst e1 e2 e3 e4
    obtain ⟨x, hx, h1, h2⟩ := (keyOf_some ..).1 hk
    obtain ⟨y, hy, h3, h4⟩ := (keyOf_some ..).1 hi
    rw [hx] at hy; injection hy with hy; subst hy
    rw [hx] at hs
    exact ⟨rfl, ⟨x, iv, hx, hs, h1, h2, h3, h4⟩, hl⟩
  · rintro ⟨rfl, ⟨a, iv, ha, hs, h1, h2, h3, h4⟩, hl⟩
    have ha : r.addresses.ntcp2 = some a := ha
    rw [(keyOf_some C r.addresses.ntcp2 kS 32 key).2 ⟨a, ha, h1, h2⟩]
    dsimp only
    rw [(keyOf_some C r.addresses.ntcp2 kI 16 iv).2 ⟨a, ha, h3, h4⟩]
    dsimp only
    rw [ha]
    simp only [Option.bind_some, hs]
    rw [if_neg hl]

theorem dialSsu2_to (C : Enc) (r : RouterInfo) (t : Transport) (ip : Bytes) (port : Nat) (key : Bytes) :
    dialSsu2 C r = .dials t ip port key ↔ t = .ssu2 ∧ Reachable C r .ssu2 ip port key := by
  unfold dialSsu2
  constructor
  · intro h
    split at h
    · cases h
    next iv hi =>
    split at h
    · cases h
    next key' hk =>
    split at h
    · cases h
    next ip' port' hs =>
    injection h with e1 e2 e3 e4
    subst e1 e2 e3 e4
    obtain ⟨x, hx, h1, h2⟩ := (keyOf_some ..).1 hk
    obtain ⟨y, hy, h3, h4⟩ := (keyOf_some ..).1 hi
    rw [hx] at hy; injection hy with hy; subst hy
    rw [hx] at hs
    exact ⟨rfl, x, iv, hx, hs, h1, h2, h3, h4⟩
  · rintro ⟨rfl, a, iv, ha, hs, h1, h2, h3, h4⟩
    have ha : r.addresses.ssu2 = some a := ha
    rw [(keyOf_some C r.addresses.ssu2 kI 32 iv).2 ⟨a, ha, h3, h4⟩]
    dsimp only
    rw [(keyOf_some C r.addresses.ssu2 kS 32 key).2 ⟨a, ha, h1, h2⟩]
    dsimp only
    rw [ha]
    simp only [Option.bind_some, hs]

/-- **C229**, in part: a dial goes nowhere but to an address in the router info, over a transport that is enabled, and
expects the key that the router info gives for this address. -/
theorem C229_address_partial (C : Enc) (al n2 s2 : Bool) (r : RouterInfo) (t : Transport) (ip : Bytes) (port : Nat)
    (key : Bytes) (h : dial C al (transports n2 s2) r = .dials t ip port key) :
    (t = .ntcp2 ∧ n2 = true ∨ t = .ssu2 ∧ s2 = true) ∧ Reachable C r t ip port key := by
  cases n2 with
  | true =>
    have h : dialNtcp2 C al r = .dials t ip port key := by cases s2 <;> exact h
    obtain ⟨rfl, h, -⟩ := (dialNtcp2_to ..).1 h
    exact ⟨.inl ⟨rfl, rfl⟩, h⟩
  | false =>
    cases s2 with
    | true =>
      obtain ⟨rfl, h'⟩ := (dialSsu2_to C r t ip port key).1 h
      exact ⟨.inr ⟨rfl, rfl⟩, h'⟩
    | false => cases h

example : dial Enc.sample false (transports true true) (sampleRouter (some [9, 9, 9, 9]) none) =
    .dials .ntcp2 [9, 9, 9, 9] 88 (List.replicate 32 7) := by decide +kernel

/-- **C229**, in part: with NTCP2 enabled, a router that has an NTCP2 address is dialled there, unless its address is a
private one; with only SSU2 enabled, a router that has an SSU2 address is dialled there. -/
theorem C229_dialled_partial (C : Enc) (al n2 s2 : Bool) (r : RouterInfo) (ip : Bytes) (port : Nat) (key : Bytes) :
    (n2 = true → Reachable C r .ntcp2 ip port key → (al = true ∨ ip.length ≠ 4 ∨ Public ip) →
      dial C al (transports n2 s2) r = .dials .ntcp2 ip port key) ∧
    (n2 = false → s2 = true → Reachable C r .ssu2 ip port key →
      dial C al (transports n2 s2) r = .dials .ssu2 ip port key) := by
  constructor
  · rintro rfl h hp
    have : dial C al (transports true s2) r = dialNtcp2 C al r := by cases s2 <;> rfl
    rw [this]
    refine (dialNtcp2_to ..).2 ⟨rfl, h, ?_⟩
    rintro ⟨h4, hg, ha⟩
    rcases hp with hp | hp | hp
    · rw [hp] at ha; cases ha
    · exact hp h4
    · have := (Util.C190_blocks (unbe ip) (by have := unbe_lt ip; rw [h4] at this; simpa using this)).2 hp
      rw [this] at hg; cases hg
  · rintro rfl rfl h
    exact (dialSsu2_to C r ..).2 ⟨rfl, h⟩

theorem reachable_sample (t : Transport) (ip : Bytes) : Reachable Enc.sample
    (match t with | .ntcp2 => sampleRouter (some ip) none | .ssu2 => sampleRouter none (some ip)) t ip 88 (List.replicate 32 7) := by
  cases t <;> exact ⟨_, List.replicate _ 3, rfl, rfl, ⟨_, rfl, rfl⟩, rfl, ⟨_, rfl, rfl⟩, rfl⟩

example : Public [9, 9, 9, 9] := (Util.C190_blocks (unbe [9, 9, 9, 9]) (by decide)).1 (by decide +kernel)

/-- **C229**, violated: with both transports enabled, a router that can be reached over SSU2 only is never connected to. -/
theorem C229_ssu2_violated (C : Enc) (al : Bool) (r : RouterInfo) (ip : Bytes) (port : Nat) (key : Bytes)
    (_ : Reachable C r .ssu2 ip port key) (hn : ∀ ip port key, ¬ Reachable C r .ntcp2 ip port key) :
    dial C al (transports true true) r = .fails := by
  show dialNtcp2 C al r = .fails
  cases h : dialNtcp2 C al r with
  | dials t ip port key => exact absurd ((dialNtcp2_to ..).1 h).2.1 (hn ip port key)
  | fails => rfl
  | panic =>
    unfold dialNtcp2 at h
    split at h
    · cases h
    split at h
    · cases h
    split at h
    · cases h
    split at h <;> cases h

example : Reachable Enc.sample (sampleRouter none (some [9, 9, 9, 9])) .ssu2 [9, 9, 9, 9] 88 (List.replicate 32 7) ∧
    ∀ ip port key, ¬ Reachable Enc.sample (sampleRouter none (some [9, 9, 9, 9])) .ntcp2 ip port key :=
  ⟨reachable_sample .ssu2 _, fun _ _ _ h => by obtain ⟨a, iv, h, -⟩ := h; cases h⟩

/-- **C229**, violated: with SSU2 alone, a request to connect to any known router that cannot be reached over SSU2 ends the
router with a panic. -/
theorem C229_crash_violated (C : Enc) (al : Bool) (r : RouterInfo) (hn : ∀ ip port key, ¬ Reachable C r .ssu2 ip port key) :
    dial C al (transports false true) r = .panic := by
  show dialSsu2 C r = .panic
  cases h : dialSsu2 C r with
  | dials t ip port key => exact absurd ((dialSsu2_to ..).1 h).2 (hn ip port key)
  | panic => rfl
  | fails =>
    unfold dialSsu2 at h
    split at h
    · cases h
    split at h
    · cases h
    split at h <;> cases h

example : ∀ ip port key, ¬ Reachable Enc.sample (sampleRouter (some [9, 9, 9, 9]) none) .ssu2 ip port key :=
  fun _ _ _ h => by obtain ⟨a, iv, h, -⟩ := h; cases h

/-- **C229**, in part: with NTCP2 enabled, no router info does. -/
theorem C229_safe_partial (C : Enc) (al s2 : Bool) (r : RouterInfo) : dial C al (transports true s2) r ≠ .panic := by
  have : dial C al (transports true s2) r = dialNtcp2 C al r := by cases s2 <;> rfl
  rw [this]
  intro h
  unfold dialNtcp2 at h
  split at h
  · cases h
  split at h
  · cases h
  split at h
  · cases h
  split at h <;> cases h

example : dial Enc.sample true (transports true false) (sampleRouter none none) = .fails := by decide +kernel

/-! ## C230: private addresses -/

/-- **C230**, in part: unless local addresses are allowed, NTCP2 dials no IPv4 address from the known private and reserved
blocks. -/
theorem C230_dial_partial (C : Enc) (ts : List Transport) (r : RouterInfo) (ip : Bytes) (port : Nat) (key : Bytes)
    (h : dial C false ts r = .dials .ntcp2 ip port key) (h4 : ip.length = 4) : Public ip := by
  have h : dialNtcp2 C false r = .dials .ntcp2 ip port key := by
    unfold dial at h
    split at h
    · exact h
    · have := ((dialSsu2_to ..).1 h).1; cases this
    · cases h
  have := ((dialNtcp2_to ..).1 h).2.2
  refine (Util.C190_blocks (unbe ip) (by have := unbe_lt ip; rw [h4] at this; simpa using this)).1 ?_
  cases hg : Util.isGlobal (unbe ip) with
  | true => rfl
  | false => exact absurd ⟨h4, hg, rfl⟩ this

example : dial Enc.sample false [.ntcp2] (sampleRouter (some [9, 9, 9, 9]) none) = .dials .ntcp2 [9, 9, 9, 9] 88 (List.replicate 32 7) ∧
    dial Enc.sample false [.ntcp2] (sampleRouter (some [10, 0, 0, 1]) none) = .fails := by decide +kernel

/-- **C230**, in part: and it takes no connection from such an address; the first connection that it may take is taken, and
the ones before it are dropped. -/
theorem C230_accept_partial (al : Bool) (q q' : List Arrival) (x : Nat) (h : listen al q = (q', .conn x)) :
    ∃ pre ip, q = pre ++ .conn x ip :: q' ∧ (al = true ∨ ip.length ≠ 4 ∨ Public ip) ∧
      ∀ a ∈ pre, ∃ y ip', a = .conn y ip' ∧ al = false ∧ ip'.length = 4 ∧ ¬ Public ip' := by
  induction q with
  | nil => cases h
  | cons a q ih =>
    cases a with
    | error => cases h
    | conn y ip =>
      unfold listen at h
      split at h
      next ht =>
        obtain ⟨pre, ip', e, h1, h2⟩ := ih h
        refine ⟨.conn y ip :: pre, ip', by rw [e]; rfl, h1, ?_⟩
        intro a ha
        rcases List.mem_cons.1 ha with rfl | ha
        · simp only [turnedAway, Bool.and_eq_true, decide_eq_true_eq, Bool.not_eq_true'] at ht
          refine ⟨y, ip, rfl, ht.2, ht.1.1, fun hp => ?_⟩
          have := (Util.C190_blocks (unbe ip) (by have := unbe_lt ip; rw [ht.1.1] at this; simpa using this)).2 hp
          rw [this] at ht; exact absurd ht.1.2 (by simp)
        · exact h2 a ha
      next ht =>
        injection h with h1 h2
        injection h2 with h2
        subst h1 h2
        refine ⟨[], ip, rfl, ?_, by simp⟩
        by_cases ha : al = true
        · exact .inl ha
        by_cases h4 : ip.length = 4
        · refine .inr (.inr ((Util.C190_blocks (unbe ip) (by have := unbe_lt ip; rw [h4] at this; simpa using this)).1 ?_))
          cases hg : Util.isGlobal (unbe ip) with
          | true => rfl
          | false => exact absurd (by simp [turnedAway, h4, hg, ha]) ht
        · exact .inr (.inl h4)

example : listen false [.conn 1 [10, 0, 0, 1], .conn 2 [9, 9, 9, 9], .conn 3 [9, 9, 9, 9]] = ([.conn 3 [9, 9, 9, 9]], .conn 2) := by
  decide +kernel

/-- **C230**, violated: SSU2 dials every address that a router info gives, private or not, whether or not local addresses are
allowed. -/
theorem C230_ssu2_violated (C : Enc) (al : Bool) (r : RouterInfo) (ip : Bytes) (port : Nat) (key : Bytes)
    (h : Reachable C r .ssu2 ip port key) : dial C al (transports false true) r = .dials .ssu2 ip port key :=
  (dialSsu2_to C r ..).2 ⟨rfl, h⟩

example : dial Enc.sample false (transports false true) (sampleRouter none (some [127, 0, 0, 1])) =
    .dials .ssu2 [127, 0, 0, 1] 88 (List.replicate 32 7) := by decide +kernel

/-- **C230**, violated: NTCP2 dials, and takes connections from, every IPv6 address, the loopback address and unique local addresses
included. -/
theorem C230_ipv6_violated (C : Enc) (s2 : Bool) (r : RouterInfo) (ip : Bytes) (port : Nat) (key : Bytes)
    (h6 : ip.length = 16) (x : Nat) (q : List Arrival) :
    (Reachable C r .ntcp2 ip port key → dial C false (transports true s2) r = .dials .ntcp2 ip port key) ∧
    listen false (.conn x ip :: q) = (q, .conn x) := by
  refine ⟨fun h => (C229_dialled_partial C false true s2 r ip port key).1 rfl h (.inr (.inl (by omega))), ?_⟩
  have : ¬ ip.length = 4 := by omega
  simp [listen, turnedAway, this]

example : listen false [.conn 1 (List.replicate 15 0 ++ [1])] = ([], .conn 1) := by decide +kernel

/-! ## C231: the published addresses -/

/-- What another router makes of an address that it reads: the place to connect to. -/
def seen (E : Env) (a : RouterAddress) : Option (Option (Bytes × Nat)) :=
  (RouterAddress.parse E a.serialize).map fun x => x.1.socket

/-- What is assumed of texts: they are valid, they are short, and the text of an address is read as the address. -/
structure Texts (E : Env) (C : Enc) : Prop where
  utf8 : ∀ s : Str, E.utf8 s = true
  ip : ∀ ip : Bytes, ip.length = 4 → E.parseIp (C.ipText ip) = some ip
  ipLen : ∀ ip : Bytes, ip.length = 4 → (C.ipText ip).length ≤ 15
  key : ∀ b : Bytes, b.length ≤ 32 → (C.b64 b).length ≤ 44
  pub : ∀ b : Bytes, (C.pub b).length = 32

/-- The history of the external addresses. -/
def Local.told (C : Enc) (s : Local) (ips : List Bytes) : Local := ips.foldl (Local.addExternal C) s

theorem dec_spec (n : Nat) : (∀ c ∈ dec n, 48 ≤ c.toNat ∧ c.toNat ≤ 57) ∧ dec n ≠ [] ∧ digits (dec n) 0 = some n ∧
    (dec n).length ≤ n + 1 := by
  have snoc : ∀ (l : Bytes) (c : UInt8) (acc m : Nat), 48 ≤ c.toNat ∧ c.toNat ≤ 57 → digits l acc = some m →
      digits (l ++ [c]) acc = some (m * 10 + (c.toNat - 48)) := by
    intro l c
    induction l with
    | nil => intro acc m hc h; simp only [digits] at h ⊢; injection h with h; subst h; simp [digits, hc]
    | cons a l ih =>
      intro acc m hc h
      simp only [List.cons_append, digits] at h ⊢
      split at h
      · rename_i ha; rw [if_pos ha]; exact ih _ _ hc h
      · cases h
  have dig : ∀ d, d < 10 → (UInt8.ofNat (48 + d)).toNat = 48 + d := by
    intro d hd; rw [UInt8.toNat_ofNat']; omega
  induction n using Nat.strongRecOn with
  | _ n ih =>
    rw [dec]
    split
    next h =>
      have e := dig n h
      refine ⟨?_, by simp, ?_, by simp⟩
      · intro c hc; simp only [List.mem_singleton] at hc; subst hc; omega
      · simp only [digits]; rw [if_pos (by omega), e]; congr 1; omega
    next h =>
      obtain ⟨h1, h2, h3, h4⟩ := ih (n / 10) (by omega)
      have e := dig (n % 10) (by omega)
      refine ⟨?_, by simp, ?_, ?_⟩
      · intro c hc
        rcases List.mem_append.1 hc with hc | hc
        · exact h1 c hc
        · simp only [List.mem_singleton] at hc; subst hc; omega
      · rw [snoc _ _ _ _ (by omega) h3, e]; congr 1; omega
      · rw [List.length_append, List.length_singleton]; omega

theorem dec_len (n : Nat) (h : n < 65536) : (dec n).length ≤ 5 := by
  rw [dec]; split
  · simp
  rw [dec]; split
  · simp
  rw [dec]; split
  · simp
  rw [dec]; split
  · simp
  rw [dec]; split
  · simp
  · omega

theorem parseUInt_dec (n : Nat) (h : n ≤ 65535) : parseUInt 65535 (dec n) = some n := by
  obtain ⟨h1, h2, h3, -⟩ := dec_spec n
  unfold parseUInt
  cases hd : dec n with
  | nil => exact absurd hd h2
  | cons c cs =>
    have hc := h1 c (by rw [hd]; simp)
    have : c ≠ 43 := by rintro rfl; simp at hc
    split
    next s e => injection e with e; exact absurd e this
    next s e =>
      rw [← hd]
      dsimp only
      rw [h3]
      simp [h, h2]

theorem published_options (C : Enc) (t : Transport) (c : Cfg) (port : Nat) (ip : Bytes) :
    (published C t c port ip).options =
      [⟨kHost, C.ipText ip⟩, ⟨kI, C.b64 c.iv⟩, ⟨kPort, dec port⟩, ⟨kS, C.b64 (C.pub c.key)⟩, ⟨kV, two⟩] := by
  rfl

theorem unpublished_options (C : Enc) (t : Transport) (c : Cfg) (port : Nat) :
    (unpublished C t c port).options =
      (match t with | .ntcp2 => [] | .ssu2 => [⟨kI, C.b64 c.iv⟩]) ++ [⟨kS, C.b64 (C.pub c.key)⟩, ⟨kV, two⟩] := by
  cases t <;> rfl

theorem published_ok (E : Env) (C : Enc) (T : Texts E C) (t : Transport) (c : Cfg) (hiv : c.iv.length ≤ 32) (port : Nat)
    (hp : port < 65536) (ip : Bytes) (h4 : ip.length = 4) : (published C t c port ip).Ok E := by
  have k1 := T.key (C.pub c.key) (by rw [T.pub]; omega)
  have k2 := T.key c.iv hiv
  have k3 := T.ipLen ip h4
  have k4 := dec_len port hp
  refine ⟨show 10 < 256 by decide, show 0 < 2 ^ 64 by decide, ⟨?_, ?_, ?_⟩, ?_⟩
  · rw [published_options]
    simp [Options.Sorted]
    decide
  · rw [published_options]
    intro m hm
    refine ⟨?_, ?_, T.utf8 _, T.utf8 _⟩ <;>
    · simp only [List.mem_cons, List.not_mem_nil, or_false] at hm
      rcases hm with rfl | rfl | rfl | rfl | rfl <;> simp only [kHost, kI, kPort, kS, kV, two, List.length_cons, List.length_nil] <;> omega
  · rw [published_options, Mapping.flatten_length]
    simp only [List.map_cons, List.map_nil, Mapping.serializedLen, List.sum_cons, List.sum_nil, kHost, kI, kPort, kS, kV, two,
      List.length_cons, List.length_nil]
    omega
  · show some (ip, port) = socketOf E (published C t c port ip).options
    rw [published_options]
    have g1 : Options.get [⟨kHost, C.ipText ip⟩, ⟨kI, C.b64 c.iv⟩, ⟨kPort, dec port⟩, ⟨kS, C.b64 (C.pub c.key)⟩, ⟨kV, two⟩] kHost =
      some (C.ipText ip) := rfl
    have g2 : Options.get [⟨kHost, C.ipText ip⟩, ⟨kI, C.b64 c.iv⟩, ⟨kPort, dec port⟩, ⟨kS, C.b64 (C.pub c.key)⟩, ⟨kV, two⟩] kPort =
      some (dec port) := rfl
    unfold socketOf
    rw [g1, g2]
    simp only [Option.bind_eq_bind, Option.bind_some, parseUInt_dec port (by omega), T.ip ip h4]
    rfl

theorem seen_published (E : Env) (C : Enc) (T : Texts E C) (t : Transport) (c : Cfg) (hiv : c.iv.length ≤ 32) (port : Nat)
    (hp : port < 65536) (ip : Bytes) (h4 : ip.length = 4) : seen E (published C t c port ip) = some (some (ip, port)) := by
  have := C57_router_address_roundtrip E _ [] (published_ok E C T t c hiv port hp ip h4) ⟨T.utf8 _, T.utf8 _⟩
  rw [List.append_nil] at this
  unfold seen
  rw [this]; rfl

theorem seen_unpublished (E : Env) (C : Enc) (T : Texts E C) (t : Transport) (c : Cfg) (hiv : c.iv.length ≤ 32) (port : Nat) :
    seen E (unpublished C t c port) = some none := by
  have k1 := T.key (C.pub c.key) (by rw [T.pub]; omega)
  have k2 := T.key c.iv hiv
  have ok : RouterAddress.Ok E { unpublished C t c port with socket := none } := by
    refine ⟨show 14 < 256 by decide, show 0 < 2 ^ 64 by decide, ⟨?_, ?_, ?_⟩, ?_⟩
    · show Options.Sorted (unpublished C t c port).options
      rw [unpublished_options]
      cases t <;> simp [Options.Sorted] <;> decide
    · show ∀ m ∈ (unpublished C t c port).options, _
      rw [unpublished_options]
      intro m hm
      refine ⟨?_, ?_, T.utf8 _, T.utf8 _⟩ <;>
      · cases t
        · simp only [List.nil_append, List.mem_cons, List.not_mem_nil, or_false] at hm
          rcases hm with rfl | rfl <;> simp only [kI, kS, kV, two, List.length_cons, List.length_nil] <;> omega
        · simp only [List.cons_append, List.nil_append, List.mem_cons, List.not_mem_nil, or_false] at hm
          rcases hm with rfl | rfl | rfl <;> simp only [kI, kS, kV, two, List.length_cons, List.length_nil] <;> omega
    · show ((List.map Mapping.serialize (unpublished C t c port).options).flatten).length < 65536
      rw [unpublished_options, Mapping.flatten_length]
      cases t <;> simp only [List.nil_append, List.cons_append, List.map_cons, List.map_nil, Mapping.serializedLen, List.sum_cons, List.sum_nil, kI, kS, kV, two,
        List.length_cons, List.length_nil] <;> omega
    · show none = socketOf E (unpublished C t c port).options
      rw [unpublished_options]
      cases t <;> rfl
  have := C57_router_address_roundtrip E _ [] ok ⟨T.utf8 _, T.utf8 _⟩
  rw [List.append_nil] at this
  unfold seen
  rw [show (unpublished C t c port).serialize = RouterAddress.serialize { unpublished C t c port with socket := none } from rfl, this]; rfl

/-- The configuration and the address of a transport. -/
def Local.cfg (s : Local) : Transport → Option Cfg
  | .ntcp2 => s.ntcp2
  | .ssu2 => s.ssu2
def Local.address (s : Local) : Transport → Option RouterAddress
  | .ntcp2 => s.addresses.ntcp2
  | .ssu2 => s.addresses.ssu2

/-- What is to be published: nothing unless it is asked for; the configured host, or else the external address found last;
with the port of the socket. -/
def expected (c : Cfg) (bound : Nat) (ips : List Bytes) : Option (Bytes × Nat) :=
  if c.publish then (match c.host with | some h => some h | none => ips.getLast?).map fun ip => (ip, bound) else none

theorem told_spec (C : Enc) (n2 s2 : Option Cfg) (bound : Transport → Nat) (s : Local) (hs : Local.start C n2 s2 bound = some s)
    (ips : List Bytes) : (s.told C ips).external = ips.getLast? ∧ (s.told C ips).ntcp2 = n2 ∧ (s.told C ips).ssu2 = s2 ∧
    ∀ t, (s.told C ips).address t = ((s.told C ips).cfg t).map fun c =>
      if c.publish = true ∧ c.host = none then
        match ips.getLast? with
        | none => unpublished C t c (bound t)
        | some ip => published C t c c.port ip
      else initial C t c (bound t) := by
  have e0 : s = { ntcp2 := n2, ssu2 := s2
                  addresses := { ntcp2 := n2.map fun c => initial C .ntcp2 c (bound .ntcp2)
                                 ssu2 := s2.map fun c => initial C .ssu2 c (bound .ssu2) } } := by
    unfold Local.start at hs
    split at hs
    · cases hs
    · injection hs with hs; exact hs.symm
  have base : ∀ t (c : Cfg), initial C t c (bound t) =
      if c.publish = true ∧ c.host = none then unpublished C t c (bound t) else initial C t c (bound t) := by
    intro t c
    split
    · rename_i h; unfold initial; rw [h.1, h.2]
    · rfl
  have snoc : ∀ l : List Bytes, ∀ x, s.told C (l ++ [x]) = (s.told C l).addExternal C x := by
    intro l x; simp [Local.told, List.foldl_append]
  rw [← List.reverse_reverse ips]
  induction ips.reverse with
  | nil =>
    subst e0
    refine ⟨rfl, rfl, rfl, fun t => ?_⟩
    cases t
    · show n2.map _ = n2.map _
      congr 1; funext c; exact base .ntcp2 c
    · show s2.map _ = s2.map _
      congr 1; funext c; exact base .ssu2 c
  | cons x l ih =>
    rw [List.reverse_cons, snoc, List.getLast?_append, List.getLast?_singleton, Option.some_or]
    obtain ⟨h1, h2, h3, h4⟩ := ih
    unfold Local.addExternal
    split
    next h =>
      refine ⟨h, h2, h3, fun t => ?_⟩
      rw [h4 t, ← h1, h]
    next h =>
      refine ⟨rfl, h2, h3, fun t => ?_⟩
      have key : ∀ t (cfg : Option Cfg) (old : Option RouterAddress), (cfg = none → old = none) →
          (∀ c, cfg = some c → ¬ (c.publish = true ∧ c.host = none) → old = some (initial C t c (bound t))) →
          reached C t cfg x old = cfg.map fun c =>
            if c.publish = true ∧ c.host = none then published C t c c.port x else initial C t c (bound t) := by
        intro t cfg old hn ho
        cases cfg with
        | none => exact hn rfl
        | some c =>
          simp only [reached, Option.map_some]
          split
          · rfl
          · exact ho c rfl (by assumption)
      cases t
      · refine key .ntcp2 _ _ ?_ ?_
        · intro e
          have := h4 .ntcp2
          simp only [Local.cfg, e, Option.map_none] at this
          exact this
        · intro c e hc
          have := h4 .ntcp2
          simp only [Local.cfg, e, Option.map_some, if_neg hc] at this
          exact this
      · refine key .ssu2 _ _ ?_ ?_
        · intro e
          have := h4 .ssu2
          simp only [Local.cfg, e, Option.map_none] at this
          exact this
        · intro c e hc
          have := h4 .ssu2
          simp only [Local.cfg, e, Option.map_some, if_neg hc] at this
          exact this

/-- **C231**, in part: with a fixed port, other routers read from the local router info, at every time, just what is to be
published: the configured host, or the external address found last, and the port of the socket, if publishing was
asked for; and no place to connect to otherwise. -/
theorem C231_published_partial (E : Env) (C : Enc) (T : Texts E C) (n2 s2 : Option Cfg) (bound : Transport → Nat) (s : Local)
    (hs : Local.start C n2 s2 bound = some s) (ips : List Bytes) (hips : ∀ ip ∈ ips, ip.length = 4) (t : Transport) (c : Cfg)
    (hc : s.cfg t = some c) (hiv : c.iv.length ≤ 32) (hh : ∀ h, c.host = some h → h.length = 4) (hb : bound t < 65536)
    (hp : c.port = bound t) :
    ∃ a, (s.told C ips).address t = some a ∧ seen E a = some (expected c (bound t) ips) := by
  obtain ⟨-, h2, h3, h4⟩ := told_spec C n2 s2 bound s hs ips
  have h0 := told_spec C n2 s2 bound s hs []
  have hc' : (s.told C ips).cfg t = some c := by
    rw [← hc]
    cases t
    · exact h2.trans h0.2.1.symm
    · exact h3.trans h0.2.2.1.symm
  rw [h4 t, hc', Option.map_some]
  refine ⟨_, rfl, ?_⟩
  unfold expected
  cases hpub : c.publish with
  | false =>
    rw [if_neg (by simp), if_neg (by simp)]
    have : initial C t c (bound t) = unpublished C t c (bound t) := by unfold initial; rw [hpub]
    rw [this]; exact seen_unpublished E C T t c hiv _
  | true =>
    cases hhost : c.host with
    | some h =>
      rw [if_neg (by simp), if_pos rfl]
      have : initial C t c (bound t) = published C t c (bound t) h := by unfold initial; rw [hpub, hhost]
      rw [this]; exact seen_published E C T t c hiv _ hb h (hh h hhost)
    | none =>
      rw [if_pos ⟨rfl, rfl⟩, if_pos rfl]
      cases hl : ips.getLast? with
      | none => exact seen_unpublished E C T t c hiv _
      | some ip =>
        rw [hp]
        exact seen_published E C T t c hiv _ hb ip (hips ip (List.mem_of_getLast? hl))

/-! Texts and a configuration that meet the hypotheses. -/
def Env.plain : Env := ⟨id, fun _ => true, fun _ => true, fun _ _ _ => true, some⟩
theorem plain_texts : Texts Env.plain Enc.sample :=
  ⟨fun _ => rfl, fun _ _ => rfl, fun ip h => by show ip.length ≤ 15; omega, fun b h => by show b.length ≤ 44; omega, fun _ => rfl⟩
def Cfg.sample : Cfg := ⟨88, none, true, List.replicate 32 1, List.replicate 16 2⟩

example : ∃ s, Local.start Enc.sample (some Cfg.sample) none (fun _ => 88) = some s ∧ s.cfg .ntcp2 = some Cfg.sample ∧
    (((s.told Enc.sample [[9, 9, 9, 9], [8, 8, 8, 8]]).address .ntcp2).bind (seen Env.plain)) = some (some ([8, 8, 8, 8], 88)) :=
  ⟨_, rfl, rfl, by decide +kernel⟩

/-- **C231**: an address that others can connect to has the cost 10 in the local router info, one without a place to connect to the higher cost 14; none of them expires, and
each is listed under its own transport. -/
theorem C231_cost (C : Enc) (n2 s2 : Option Cfg) (bound : Transport → Nat) (s : Local) (hs : Local.start C n2 s2 bound = some s) (ips : List Bytes) (t : Transport) (c : Cfg)
    (hc : s.cfg t = some c) :
    ∃ a, (s.told C ips).address t = some a ∧ a.cost = (if (expected c (bound t) ips).isSome then 10 else 14) ∧ a.expires = 0 ∧ a.transport = t := by
  obtain ⟨-, h2, h3, h4⟩ := told_spec C n2 s2 bound s hs ips
  have h0 := told_spec C n2 s2 bound s hs []
  have hc' : (s.told C ips).cfg t = some c := by
    rw [← hc]
    cases t
    · exact h2.trans h0.2.1.symm
    · exact h3.trans h0.2.2.1.symm
  rw [h4 t, hc', Option.map_some]
  refine ⟨_, rfl, ?_⟩
  unfold expected initial
  cases hpub : c.publish <;> cases hh : c.host <;> cases hl : ips.getLast? <;> simp [published, unpublished]

/-- **C231**: a transport that is not to be published never has a `host` or a `port` in the local router info, whatever
addresses are found. -/
theorem C231_hidden (C : Enc) (n2 s2 : Option Cfg) (bound : Transport → Nat) (s : Local)
    (hs : Local.start C n2 s2 bound = some s) (ips : List Bytes) (t : Transport) (c : Cfg)
    (hc : s.cfg t = some c) (hp : c.publish = false) (a : RouterAddress) (ha : (s.told C ips).address t = some a) :
    a.options.get [104, 111, 115, 116] = none ∧ a.options.get [112, 111, 114, 116] = none := by
  obtain ⟨-, h2, h3, h4⟩ := told_spec C n2 s2 bound s hs ips
  have h0 := told_spec C n2 s2 bound s hs []
  have hc' : (s.told C ips).cfg t = some c := by
    rw [← hc]
    cases t
    · exact h2.trans h0.2.1.symm
    · exact h3.trans h0.2.2.1.symm
  rw [h4 t, hc', Option.map_some, if_neg (by simp [hp])] at ha
  injection ha with ha
  have : initial C t c (bound t) = unpublished C t c (bound t) := by unfold initial; rw [hp]
  rw [← ha, this, unpublished_options]
  cases t <;> exact ⟨rfl, rfl⟩

example : ∃ s, Local.start Enc.sample (some { Cfg.sample with publish := false }) none (fun _ => 88) = some s ∧
    ((s.told Enc.sample [[9, 9, 9, 9]]).address .ntcp2).isSome = true := ⟨_, rfl, by decide +kernel⟩

/-- **C231**, violated: when the port is left to the operating system, the port published with an external address is 0,
not the port of the socket. -/
theorem C231_port_violated (E : Env) (C : Enc) (T : Texts E C) (n2 s2 : Option Cfg) (bound : Transport → Nat) (s : Local)
    (hs : Local.start C n2 s2 bound = some s) (ips : List Bytes) (ip : Bytes) (hip : ip.length = 4) (t : Transport) (c : Cfg)
    (hc : s.cfg t = some c) (hiv : c.iv.length ≤ 32) (hh : c.host = none) (hpub : c.publish = true) (hp : c.port = 0)
    (hb : bound t ≠ 0) :
    ∃ a, (s.told C (ips ++ [ip])).address t = some a ∧ seen E a = some (some (ip, 0)) ∧
      some (ip, 0) ≠ expected c (bound t) (ips ++ [ip]) := by
  obtain ⟨-, h2, h3, h4⟩ := told_spec C n2 s2 bound s hs (ips ++ [ip])
  have h0 := told_spec C n2 s2 bound s hs []
  have hc' : (s.told C (ips ++ [ip])).cfg t = some c := by
    rw [← hc]
    cases t
    · exact h2.trans h0.2.1.symm
    · exact h3.trans h0.2.2.1.symm
  rw [h4 t, hc', Option.map_some, if_pos ⟨hpub, hh⟩, List.getLast?_append, List.getLast?_singleton, Option.some_or]
  refine ⟨_, rfl, ?_, ?_⟩
  · rw [hp]; exact seen_published E C T t c hiv 0 (by decide) ip hip
  · unfold expected
    rw [if_pos hpub, hh, List.getLast?_append, List.getLast?_singleton, Option.some_or]
    intro e
    simp only [Option.map_some, Option.some.injEq, Prod.mk.injEq, true_and] at e
    exact hb e.symm

example : ∃ s, Local.start Enc.sample (some { Cfg.sample with port := 0 }) none (fun _ => 40001) = some s ∧
    (((s.told Enc.sample [[9, 9, 9, 9]]).address .ntcp2).bind (seen Env.plain)) = some (some ([9, 9, 9, 9], 0)) :=
  ⟨_, rfl, by decide +kernel⟩

/-! ## C232: errors of the network -/

/-- **C232**, violated: the first error when a connection is accepted (too many open files, a connection that was reset before it was
accepted) ends the transport and with it the router, whatever else is going on. -/
theorem C232_accept_violated (s : Ntcp2) (h : s.ends = []) (pre rest : List Arrival)
    (hpre : ∀ a ∈ pre, ∃ x ip, a = .conn x ip ∧ turnedAway s.allowLocal ip = true) (ha : s.arrivals = pre ++ .error :: rest)
    (others : List Bool) : s.poll.2.1 = .ended ∧ routerEnds (decide (s.poll.2.1 = .ended) :: others) = true := by
  have hl : ∀ pre : List Arrival, (∀ a ∈ pre, ∃ x ip, a = .conn x ip ∧ turnedAway s.allowLocal ip = true) →
      listen s.allowLocal (pre ++ .error :: rest) = (rest, .ended) := by
    intro pre
    induction pre with
    | nil => intro _; rfl
    | cons a pre ih =>
      intro hp
      obtain ⟨x, ip, rfl, ht⟩ := hp a (by simp)
      rw [List.cons_append, listen, if_pos ht]
      exact ih fun a ha => hp a (List.mem_cons_of_mem _ ha)
  have : s.poll.2.1 = .ended := by
    unfold Ntcp2.poll
    rw [h, ha, hl pre hpre]
  refine ⟨this, ?_⟩
  rw [this]; rfl

example : (Ntcp2.poll { arrivals := [.conn 1 [10, 0, 0, 1], .error, .conn 2 [9, 9, 9, 9]], running := [5] }).2.1 = .ended := by decide +kernel

/-- **C232**, violated: so does the first error when a datagram is sent (no route, not permitted, too long), and the packets
behind it are not sent. -/
theorem C232_send_violated {α : Type} (pre : List α) (p : α) (rest : List α) (net : List Send) (others : List Bool) :
    (sendAll (pre ++ p :: rest) (pre.map (fun _ => .sent) ++ .error :: net)).2 = (pre, true) ∧
    routerEnds ((sendAll (pre ++ p :: rest) (pre.map (fun _ => .sent) ++ .error :: net)).2.2 :: others) = true := by
  have : (sendAll (pre ++ p :: rest) (pre.map (fun _ => .sent) ++ .error :: net)).2 = (pre, true) := by
    induction pre with
    | nil => rfl
    | cons a pre ih =>
      simp only [List.cons_append, List.map_cons, sendAll]
      rw [ih]
  refine ⟨this, ?_⟩
  rw [this]; rfl

example : sendAll [1, 2, 3] [.sent, .error] = ([3], [1], true) := by decide

/-- **C232**, in part: datagrams are sent in order, each once, none skipped; the stream goes on if the network reports no
error. -/
theorem C232_sent_partial {α : Type} (ps : List α) (net : List Send) :
    (.error ∉ net → (sendAll ps net).2.2 = false) ∧
    ((sendAll ps net).2.2 = false → (sendAll ps net).2.1 ++ (sendAll ps net).1 = ps) := by
  induction ps generalizing net with
  | nil => simp [sendAll]
  | cons p ps ih =>
    cases net with
    | nil => simp [sendAll]
    | cons a net =>
      cases a with
      | later => simp [sendAll]
      | error => simp [sendAll]
      | sent =>
        simp only [sendAll, List.cons_append]
        obtain ⟨h1, h2⟩ := ih net
        refine ⟨fun h => h1 fun h' => h (List.mem_cons_of_mem _ h'), fun h => by rw [h2 h]⟩

example : sendAll [1, 2, 3] [.sent, .later, .sent] = ([2, 3], [1], false) := by decide

/-- Nothing went wrong: no error while accepting, no task that panicked. -/
def calm : Step → Bool
  | .arrive .error => false
  | .finish _ .panicked => false
  | .close .panicked => false
  | _ => true

theorem listen_spec (al : Bool) (q : List Arrival) :
    ((listen al q).2 = .nothing → (listen al q).1 = []) ∧ (∃ pre, q = pre ++ (listen al q).1) ∧
    ((listen al q).2 = .ended → .error ∈ q) ∧ ((listen al q).2 ≠ .nothing → (listen al q).1.length < q.length) := by
  induction q with
  | nil => exact ⟨fun _ => rfl, ⟨[], rfl⟩, fun h => by simp [listen] at h, fun h => by simp [listen] at h⟩
  | cons a q ih =>
    cases a with
    | error => exact ⟨fun h => by simp [listen] at h, ⟨[.error], rfl⟩, fun _ => by simp, fun _ => by simp [listen]⟩
    | conn x ip =>
      unfold listen
      split
      · obtain ⟨h1, ⟨pre, h2⟩, h3, h4⟩ := ih
        exact ⟨h1, ⟨.conn x ip :: pre, congrArg (.conn x ip :: ·) h2⟩, fun h => List.mem_cons_of_mem _ (h3 h),
          fun h => Nat.lt_succ_of_lt (h4 h)⟩
      · exact ⟨fun h => (by cases h), ⟨[.conn x ip], rfl⟩, fun h => (by cases h), fun _ => by simp⟩

/-- What a poll gives for a handshake that ended, and for a connection that ended. -/
def told : Shake → Poll
  | .opened i r => .event (.established i r)
  | .failed r => .event (.failure r)
  | .refused => .pending
  | .panicked => .ended
def toldEnd : Close → Poll
  | .closed r => .event (.closed r)
  | .panicked => .ended

/-- What is left of the queues after a poll. -/
theorem poll_spec (s : Ntcp2) :
    (∃ pre, s.arrivals = pre ++ s.poll.1.arrivals) ∧
    (s.ends = s.poll.1.ends ∧ s.shakes = s.poll.1.shakes ∧ (s.shakes = [] ∧ s.poll.2.1 = .pending ∧ s.ends = [] ∨
        s.poll.2.1 = .ended ∧ .error ∈ s.arrivals ∧ s.poll.1.arrivals.length < s.arrivals.length ∧ s.ends = []) ∨
     (∃ e, s.ends = e :: s.poll.1.ends ∧ s.shakes = s.poll.1.shakes ∧
        s.poll.2.1 = toldEnd e) ∨
     (∃ e, s.ends = [] ∧ s.poll.1.ends = [] ∧ s.shakes = e :: s.poll.1.shakes ∧
        s.poll.2.1 = told e)) := by
  have key : ∀ (s' : Ntcp2) (w : Bool), s'.ends = [] →
      (s'.shake w).1.arrivals = s'.arrivals ∧ (s'.shake w).1.ends = [] ∧
      (s'.shakes = [] ∧ (s'.shake w).1.shakes = [] ∧ (s'.shake w).2.1 = .pending ∨
       ∃ e, s'.shakes = e :: (s'.shake w).1.shakes ∧
        (s'.shake w).2.1 = told e) := by
    intro s' w he
    obtain ⟨al, arr, run, sh, en, pe, st⟩ := s'
    dsimp only at he
    subst he
    cases sh with
    | nil =>
      cases run <;> exact ⟨rfl, rfl, .inl ⟨rfl, rfl, rfl⟩⟩
    | cons e rest =>
      have : ((run.isEmpty && (e :: rest).isEmpty) = true) = False := by simp
      simp only [Ntcp2.shake, this, if_false]
      cases e <;> exact ⟨rfl, rfl, .inr ⟨_, rfl, rfl⟩⟩
  obtain ⟨al, arr, run, sh, en, pe, st⟩ := s
  cases en with
  | cons e rest =>
    cases e with
    | closed r => exact ⟨⟨[], rfl⟩, .inr (.inl ⟨_, rfl, rfl, rfl⟩)⟩
    | panicked => exact ⟨⟨[], rfl⟩, .inr (.inl ⟨_, rfl, rfl, rfl⟩)⟩
  | nil =>
    obtain ⟨l1, l2, l3, l4⟩ := listen_spec al arr
    simp only [Ntcp2.poll]
    cases hl : listen al arr with
    | mk rest h =>
      rw [hl] at l1 l2 l3 l4
      cases h with
      | ended => exact ⟨l2, .inl ⟨rfl, rfl, .inr ⟨rfl, l3 rfl, l4 (by simp), trivial⟩⟩⟩
      | nothing =>
        dsimp only
        obtain ⟨k1, k2, k3⟩ := key ⟨al, rest, run, sh, [], pe, st⟩ false rfl
        refine ⟨by rw [k1]; exact l2, ?_⟩
        rcases k3 with ⟨a, b, c⟩ | ⟨e, a, b⟩
        · exact .inl ⟨k2.symm, a.trans b.symm, .inl ⟨a, c, trivial⟩⟩
        · exact .inr (.inr ⟨e, trivial, k2, a, b⟩)
      | conn x =>
        dsimp only
        obtain ⟨k1, k2, k3⟩ := key ⟨al, rest, run ++ [x], sh, [], pe, false⟩ st rfl
        refine ⟨by rw [k1]; exact l2, ?_⟩
        rcases k3 with ⟨a, b, c⟩ | ⟨e, a, b⟩
        · exact .inl ⟨k2.symm, a.trans b.symm, .inl ⟨a, c, trivial⟩⟩
        · exact .inr (.inr ⟨e, trivial, k2, a, b⟩)

/-- **C232**, in part: as long as no connection fails while it is accepted and no task panics, the transport goes on, whatever else
happens. -/
theorem C232_keeps_partial (al : Bool) (xs : List Step) (hx : ∀ x ∈ xs, calm x = true) :
    .ended ∉ (Ntcp2.run { allowLocal := al } xs).2 := by
  have H : ∀ (xs : List Step) (s : Ntcp2), (∀ x ∈ xs, calm x = true) → .error ∉ s.arrivals → .panicked ∉ s.shakes →
      .panicked ∉ s.ends → .ended ∉ (s.run xs).2 := by
    intro xs
    induction xs with
    | nil => intro s _ _ _ _; simp [Ntcp2.run]
    | cons x xs ih =>
      intro s hx h1 h2 h3
      have hx' : ∀ y ∈ xs, calm y = true := fun y hy => hx y (List.mem_cons_of_mem _ hy)
      have hc := hx x (by simp)
      simp only [Ntcp2.run, List.mem_append, not_or]
      cases x with
      | poll =>
        obtain ⟨⟨pre, p1⟩, p2⟩ := poll_spec s
        have a1 : .error ∉ s.poll.1.arrivals := fun h => h1 (by rw [p1]; exact List.mem_append_right _ h)
        simp only [Ntcp2.step, Option.toList_some, List.mem_singleton]
        rcases p2 with ⟨q1, q2, q3⟩ | ⟨e, q1, q2, q3⟩ | ⟨e, q1, q2, q3, q4⟩
        · refine ⟨?_, ih _ hx' a1 (by rw [← q2]; exact h2) (by rw [← q1]; exact h3)⟩
          rcases q3 with ⟨-, q3, -⟩ | ⟨-, q3, -⟩
          · rw [q3]; simp
          · exact absurd q3 h1
        · rw [q1] at h3
          refine ⟨?_, ih _ hx' a1 (by rw [← q2]; exact h2) fun h => h3 (List.mem_cons_of_mem _ h)⟩
          rw [q3]
          cases e with
          | closed r => simp [toldEnd]
          | panicked => exact absurd (by simp) h3
        · rw [q3] at h2
          refine ⟨?_, ih _ hx' a1 (fun h => h2 (List.mem_cons_of_mem _ h)) (by rw [q2]; simp)⟩
          rw [q4]
          cases e with
          | panicked => exact absurd (by simp) h2
          | _ => simp [told]
      | arrive a =>
        cases a with
        | error => simp [calm] at hc
        | conn y ip => exact ⟨by simp [Ntcp2.step], ih _ hx' (by simpa [Ntcp2.step] using h1) h2 h3⟩
      | finish y how =>
        cases how with
        | panicked => simp [calm] at hc
        | _ => exact ⟨by simp [Ntcp2.step], ih _ hx' h1 (by simpa [Ntcp2.step] using h2) h3⟩
      | close how =>
        cases how with
        | panicked => simp [calm] at hc
        | closed r => exact ⟨by simp [Ntcp2.step], ih _ hx' h1 h2 (by simpa [Ntcp2.step] using h3)⟩
      | connect y => exact ⟨by simp [Ntcp2.step], ih _ hx' h1 h2 h3⟩
      | accept r => exact ⟨by simp [Ntcp2.step], ih _ hx' h1 h2 h3⟩
      | reject r => exact ⟨by simp [Ntcp2.step], ih _ hx' h1 h2 h3⟩
  exact H xs _ hx (by simp) (by simp) (by simp)

example : (Ntcp2.run {} [.arrive (.conn 1 [9, 9, 9, 9]), .poll, .finish 1 (.opened true [7]), .poll, .accept [7], .close (.closed [7]), .poll]).2 =
    [.pending, .event (.established true [7]), .event (.closed [7])] := by decide +kernel

/-! ## C233: each outcome is reported once -/

/-- The handshakes that ended in the history, and the connections that ended. -/
def finished (xs : List Step) : List Shake := xs.filterMap fun | .finish _ how => some how | _ => none
def closings (xs : List Step) : List Close := xs.filterMap fun | .close how => some how | _ => none

/-- What is to be reported of them. -/
def Shake.news : Shake → Option Event
  | .opened i r => some (.established i r)
  | .failed r => some (.failure r)
  | .refused | .panicked => none
def Close.news : Close → Option Event
  | .closed r => some (.closed r)
  | .panicked => none

/-- The reports among the results of the polls. -/
def aboutShakes (ps : List Poll) : List Event :=
  ps.filterMap fun | .event (.established i r) => some (.established i r) | .event (.failure r) => some (.failure r) | _ => none
def aboutEnds (ps : List Poll) : List Event := ps.filterMap fun | .event (.closed r) => some (.closed r) | _ => none

theorem run_reports (xs : List Step) : ∀ s : Ntcp2,
    aboutShakes (s.run xs).2 ++ (s.run xs).1.shakes.filterMap Shake.news = (s.shakes ++ finished xs).filterMap Shake.news ∧
    aboutEnds (s.run xs).2 ++ (s.run xs).1.ends.filterMap Close.news = (s.ends ++ closings xs).filterMap Close.news := by
  induction xs with
  | nil => intro s; simp [Ntcp2.run, aboutShakes, aboutEnds, finished, closings]
  | cons x xs ih =>
    intro s
    obtain ⟨i1, i2⟩ := ih (s.step x).1
    have e1 : (s.run (x :: xs)).2 = (s.step x).2.toList ++ ((s.step x).1.run xs).2 := rfl
    have e2 : (s.run (x :: xs)).1 = ((s.step x).1.run xs).1 := rfl
    have f1 : ∀ a b, aboutShakes (a ++ b) = aboutShakes a ++ aboutShakes b := fun a b => List.filterMap_append
    have f2 : ∀ a b, aboutEnds (a ++ b) = aboutEnds a ++ aboutEnds b := fun a b => List.filterMap_append
    rw [e1, e2, f1, f2, List.append_assoc, List.append_assoc, i1, i2]
    cases x with
    | poll =>
      have g1 : finished (.poll :: xs) = finished xs := rfl
      have g2 : closings (.poll :: xs) = closings xs := rfl
      rw [g1, g2]
      simp only [Ntcp2.step, Option.toList_some]
      rcases (poll_spec s).2 with ⟨q1, q2, q3⟩ | ⟨e, q1, q2, q3⟩ | ⟨e, q1, q2, q3, q4⟩
      · have : aboutShakes [s.poll.2.1] = [] ∧ aboutEnds [s.poll.2.1] = [] := by
          rcases q3 with ⟨-, q3, -⟩ | ⟨q3, -⟩ <;> rw [q3] <;> exact ⟨rfl, rfl⟩
        rw [this.1, this.2, ← q1, ← q2]
        exact ⟨rfl, rfl⟩
      · rw [q1, q2, q3]
        cases e <;> simp [toldEnd, aboutShakes, aboutEnds, Close.news, List.filterMap_cons]
      · rw [q1, q2, q3, q4]
        cases e <;> simp [told, aboutShakes, aboutEnds, Shake.news, List.filterMap_cons]
    | finish y how =>
      have g1 : finished (.finish y how :: xs) = how :: finished xs := rfl
      have g2 : closings (.finish y how :: xs) = closings xs := rfl
      rw [g1, g2]
      simp [Ntcp2.step, aboutShakes, aboutEnds]
    | close how =>
      have g1 : finished (.close how :: xs) = finished xs := rfl
      have g2 : closings (.close how :: xs) = how :: closings xs := rfl
      rw [g1, g2]
      simp [Ntcp2.step, aboutShakes, aboutEnds]
    | arrive a => simp [Ntcp2.step, aboutShakes, aboutEnds, finished, closings]
    | connect y => simp [Ntcp2.step, aboutShakes, aboutEnds, finished, closings]
    | accept r => simp [Ntcp2.step, aboutShakes, aboutEnds, finished, closings]
    | reject r => simp [Ntcp2.step, aboutShakes, aboutEnds, finished, closings]

/-- **C233**: the manager is told of the handshakes that ended and of the connections that ended: of each once, in the order
in which they ended, and of nothing else. What it was not told yet is still waiting. -/
theorem C233_once (al : Bool) (xs : List Step) :
    let r := Ntcp2.run { allowLocal := al } xs
    aboutShakes r.2 ++ r.1.shakes.filterMap Shake.news = (finished xs).filterMap Shake.news ∧
    aboutEnds r.2 ++ r.1.ends.filterMap Close.news = (closings xs).filterMap Close.news :=
  run_reports xs { allowLocal := al }

example : aboutShakes (Ntcp2.run {} [.connect 1, .connect 2, .finish 2 (.failed [8]), .finish 1 (.opened false [7]), .poll]).2 = [.failure [8]] := by
  decide +kernel

theorem run_append (xs ys : List Step) : ∀ s : Ntcp2, s.run (xs ++ ys) = (((s.run xs).1.run ys).1, (s.run xs).2 ++ ((s.run xs).1.run ys).2) := by
  induction xs with
  | nil => intro s; rfl
  | cons x xs ih => intro s; simp [Ntcp2.run, ih]

/-- **C233**: after as many polls as there are handshakes and connections that ended and connections that arrived, it was told
of all. -/
theorem C233_all (al : Bool) (xs : List Step) (n : Nat)
    (hn : (Ntcp2.run { allowLocal := al } xs).1.ends.length + (Ntcp2.run { allowLocal := al } xs).1.shakes.length +
      (Ntcp2.run { allowLocal := al } xs).1.arrivals.length ≤ n) :
    let r := Ntcp2.run { allowLocal := al } (xs ++ List.replicate n .poll)
    aboutShakes r.2 = (finished xs).filterMap Shake.news ∧ aboutEnds r.2 = (closings xs).filterMap Close.news := by
  have H : ∀ (n : Nat) (s : Ntcp2), s.ends.length + s.shakes.length + s.arrivals.length ≤ n →
      (s.run (List.replicate n .poll)).1.ends = [] ∧ (s.run (List.replicate n .poll)).1.shakes = [] := by
    intro n
    induction n with
    | zero =>
      intro s h
      exact ⟨List.eq_nil_of_length_eq_zero (by show s.ends.length = 0; omega),
        List.eq_nil_of_length_eq_zero (by show s.shakes.length = 0; omega)⟩
    | succ n ih =>
      intro s h
      show ((s.poll).1.run (List.replicate n .poll)).1.ends = [] ∧ ((s.poll).1.run (List.replicate n .poll)).1.shakes = []
      obtain ⟨⟨pre, p1⟩, p2⟩ := poll_spec s
      have hl : s.poll.1.arrivals.length ≤ s.arrivals.length := by
        have := congrArg List.length p1; rw [List.length_append] at this; omega
      rcases p2 with ⟨q1, q2, ⟨q3, -, q5⟩ | ⟨-, -, q3, -⟩⟩ | ⟨e, q1, q2, q3⟩ | ⟨e, q1, q2, q3, q4⟩
      · -- nothing was waiting
        have stay : ∀ (m : Nat) (s : Ntcp2), s.ends = [] → s.shakes = [] →
            (s.run (List.replicate m .poll)).1.ends = [] ∧ (s.run (List.replicate m .poll)).1.shakes = [] := by
          intro m
          induction m with
          | zero => intro s a b; exact ⟨a, b⟩
          | succ m ihm =>
            intro s a b
            show ((s.poll).1.run (List.replicate m .poll)).1.ends = [] ∧ ((s.poll).1.run (List.replicate m .poll)).1.shakes = []
            rcases (poll_spec s).2 with ⟨r1, r2, -⟩ | ⟨e, r1, -⟩ | ⟨e, -, -, r3, -⟩
            · exact ihm _ (r1 ▸ a) (r2 ▸ b)
            · rw [a] at r1; cases r1
            · rw [b] at r3; cases r3
        exact stay n _ (q1 ▸ q5) (q2 ▸ q3)
      · exact ih _ (by rw [← q1, ← q2]; omega)
      · have := congrArg List.length q1; rw [List.length_cons] at this
        exact ih _ (by rw [← q2]; omega)
      · have := congrArg List.length q3; rw [List.length_cons] at this
        rw [q1, List.length_nil] at h
        exact ih _ (by rw [q2, List.length_nil]; omega)
  have h := run_reports (xs ++ List.replicate n .poll) { allowLocal := al }
  have f1 : finished (xs ++ List.replicate n .poll) = finished xs := by
    unfold finished; rw [List.filterMap_append]; simp
  have f2 : closings (xs ++ List.replicate n .poll) = closings xs := by
    unfold closings; rw [List.filterMap_append]; simp
  rw [f1, f2] at h
  have hH := H n _ hn
  have e : (Ntcp2.run { allowLocal := al } (xs ++ List.replicate n .poll)).1 =
      ((Ntcp2.run { allowLocal := al } xs).1.run (List.replicate n .poll)).1 := by rw [run_append]
  rw [e, hH.1, hH.2] at h
  simpa using h

example : aboutShakes (Ntcp2.run {} ([.connect 1, .connect 2, .finish 2 (.failed [8]), .finish 1 (.opened false [7])] ++
    List.replicate 2 .poll)).2 = [.failure [8], .established false [7]] := by decide +kernel

/-! ## C234: nothing that is ready is left behind -/

/-- **C234**, violated: of two connections that arrive before the first handshake is under way, the second waits when the transport
goes to sleep, and nothing wakes it. -/
theorem C234_second_violated (s : Ntcp2) (he : s.ends = []) (hs : s.shakes = []) (hw : s.stored = false) (x y : Nat)
    (ip ip' : Bytes) (rest : List Arrival) (ha : s.arrivals = .conn x ip :: .conn y ip' :: rest)
    (hip : turnedAway s.allowLocal ip = false) :
    s.poll.2 = (.pending, false) ∧ s.poll.1.arrivals = .conn y ip' :: rest := by
  obtain ⟨al, arr, run, sh, en, pe, st⟩ := s
  simp only at he hs hw ha hip
  subst he hs hw ha
  have : ((run ++ [x]).isEmpty && ([] : List Shake).isEmpty) = false := by cases run <;> rfl
  simp [Ntcp2.poll, listen, hip, Ntcp2.shake]

example : let s := (Ntcp2.run {} [.arrive (.conn 1 [9, 9, 9, 9]), .arrive (.conn 2 [8, 8, 8, 8])]).1
    s.poll.2 = (.pending, false) ∧ s.poll.1.arrivals = [.conn 2 [8, 8, 8, 8]] := by decide +kernel

/-- **C234**, violated: when a handshake with a stranger fails, the handshakes that ended after it wait, and nothing wakes the
transport. -/
theorem C234_refused_violated (s : Ntcp2) (he : s.ends = []) (ha : s.arrivals = []) (x : Shake) (rest : List Shake)
    (hs : s.shakes = .refused :: x :: rest) : s.poll.2 = (.pending, false) ∧ s.poll.1.shakes = x :: rest := by
  obtain ⟨al, arr, run, sh, en, pe, st⟩ := s
  simp only at he hs ha
  subst he hs ha
  simp [Ntcp2.poll, listen, Ntcp2.shake]

example : let s := (Ntcp2.run {} [.connect 1, .connect 2, .finish 2 .refused, .finish 1 (.opened false [7])]).1
    s.poll.2 = (.pending, false) ∧ s.poll.1.shakes = [.opened false [7]] := by decide +kernel

/-- **C234**, in part: otherwise nothing is left behind: when the transport goes to sleep without having been woken, no
connection that ended waits; if the handshakes held a waker no arrival does; and no handshake that ended does, unless
the last one looked at was refused. -/
theorem C234_rest_partial (s : Ntcp2) (h : s.poll.2 = (.pending, false)) :
    s.poll.1.ends = [] ∧ (s.stored = true → s.poll.1.arrivals = []) ∧
    (s.shakes.head? ≠ some .refused → s.poll.1.shakes = []) := by
  have h' : s.poll.2.1 = .pending := by rw [h]
  rcases (poll_spec s).2 with ⟨q1, q2, ⟨q3, -, q5⟩ | ⟨q3, -⟩⟩ | ⟨e, q1, q2, q3⟩ | ⟨e, q1, q2, q3, q4⟩
  · refine ⟨q1 ▸ q5, fun hst => ?_, fun _ => q2 ▸ q3⟩
    obtain ⟨al, arr, run, sh, en, pe, st⟩ := s
    simp only at q5 q3 hst
    subst q5 q3 hst
    simp only [Ntcp2.poll] at h ⊢
    have l1 := (listen_spec al arr).1
    cases hl : listen al arr with
    | mk rest hd =>
      rw [hl] at l1 h
      cases hd with
      | ended => cases h
      | nothing =>
        have := l1 rfl
        dsimp only at this ⊢
        subst this
        cases run <;> rfl
      | conn x =>
        exfalso
        dsimp only at h
        have : ∀ (s' : Ntcp2), s'.shakes = [] → (s'.shake true).2.2 = true := by
          intro s' e; unfold Ntcp2.shake; rw [e]; split <;> rfl
        have h2 := this ⟨al, rest, run ++ [x], [], [], pe, false⟩ rfl
        rw [h] at h2; cases h2
  · rw [q3] at h'; cases h'
  · rw [q3] at h'; cases e <;> cases h'
  · rw [q4] at h'
    refine ⟨q2, fun hst => ?_, fun hne => ?_⟩
    · obtain ⟨al, arr, run, sh, en, pe, st⟩ := s
      simp only at q1 hst
      subst q1 hst
      simp only [Ntcp2.poll] at h ⊢
      have l1 := (listen_spec al arr).1
      have hsh : ∀ (s' : Ntcp2) w, (s'.shake w).1.arrivals = s'.arrivals ∧ (s'.shake w).2.2 = w := by
        intro s' w; unfold Ntcp2.shake; split
        · exact ⟨rfl, rfl⟩
        · split <;> exact ⟨rfl, rfl⟩
      cases hl : listen al arr with
      | mk rest hd =>
        rw [hl] at l1 h
        cases hd with
        | ended => cases h
        | nothing =>
          dsimp only
          rw [(hsh _ _).1]; exact l1 rfl
        | conn x =>
          exfalso
          dsimp only at h
          have h2 := (hsh ⟨al, rest, run ++ [x], sh, [], pe, false⟩ true).2
          rw [h] at h2; cases h2
    · cases e with
      | refused => rw [q3] at hne; exact absurd rfl hne
      | opened i r => cases h'
      | failed r => cases h'
      | panicked => cases h'

example : let s := (Ntcp2.run {} [.connect 1, .poll, .poll]).1
    s.poll.2 = (.pending, false) ∧ s.stored = true := by decide +kernel

end Emissary.Net
