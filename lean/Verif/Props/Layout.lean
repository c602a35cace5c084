import Verif.Props.TunnelFragment
import Verif.Props.Ntcp2Session
import Verif.Props.RouterInfo
import Verif.Props.Garlic
import Verif.Props.BuildRecord
/-!
# Wire layouts and decisions that a round trip does not pin down

C15, C21, C22, C23, C25, C30, C32, C57, C68, C73.
-/
namespace Emissary.I2np
open Emissary

/-- C21: the four reserved bits of the store type byte do not matter. -/
theorem C21_store_type_reserved_bits (b k : Nat) : StoreType.ofByte (b + 16 * k) = StoreType.ofByte b := by
  have h1 : (b + 16 * k) % 2 = b % 2 := by omega
  have h2 : (b + 16 * k) / 2 % 8 = b / 2 % 8 := by omega
  simp only [StoreType.ofByte, h1, h2]

/-- C21: the low four bits: even is a router info, 1, 3, 5 and 7 are the lease set kinds, other values are rejected. -/
theorem C21_store_type_values (b : Nat) :
    (StoreType.ofByte b = some .routerInfo ↔ b % 2 = 0) ∧ (StoreType.ofByte b = some .leaseSet ↔ b % 16 = 1) ∧
    (StoreType.ofByte b = some .leaseSet2 ↔ b % 16 = 3) ∧ (StoreType.ofByte b = some .encryptedLeaseSet ↔ b % 16 = 5) ∧
    (StoreType.ofByte b = some .metaLeaseSet ↔ b % 16 = 7) ∧ (StoreType.ofByte b = none ↔ b % 2 = 1 ∧ 9 ≤ b % 16) := by
  have key : ∀ c, c < 16 → (StoreType.ofByte c = some .routerInfo ↔ c % 2 = 0) ∧ (StoreType.ofByte c = some .leaseSet ↔ c % 16 = 1) ∧
    (StoreType.ofByte c = some .leaseSet2 ↔ c % 16 = 3) ∧ (StoreType.ofByte c = some .encryptedLeaseSet ↔ c % 16 = 5) ∧
    (StoreType.ofByte c = some .metaLeaseSet ↔ c % 16 = 7) ∧ (StoreType.ofByte c = none ↔ c % 2 = 1 ∧ 9 ≤ c % 16) := by decide
  have e : b = b % 16 + 16 * (b / 16) := by omega
  have hk := key (b % 16) (by omega)
  have ho : StoreType.ofByte b = StoreType.ofByte (b % 16) := by
    conv => lhs; rw [e]
    exact C21_store_type_reserved_bits _ _
  have h1 : b % 16 % 16 = b % 16 := by omega
  have h2 : b % 16 % 2 = b % 2 := by omega
  rw [h1, h2, ← ho] at hk
  exact hk

end Emissary.I2np

namespace Emissary.Garlic
open Emissary

theorem takeAcks_some (n : Nat) : ∀ (i r : Bytes) (l : List (Nat × Nat)), takeAcks n i = some (l, r) →
    l.length = n ∧ i = (l.map (fun p => be 2 p.1 ++ be 2 p.2)).flatten ++ r := by
  induction n with
  | zero => intro i r l h; simp only [takeAcks, Option.some.injEq, Prod.mk.injEq] at h; obtain ⟨rfl, rfl⟩ := h; simp
  | succ n ih =>
    intro i r l h
    simp only [takeAcks] at h
    unbind h with ⟨a, r1⟩ e1
    unbind h with ⟨b, r2⟩ e2
    unbind h with ⟨t, r3⟩ e3
    simp only [Option.pure_def, Option.some.injEq, Prod.mk.injEq] at h
    obtain ⟨rfl, rfl⟩ := h
    obtain ⟨rfl, _⟩ := beU_some e1
    obtain ⟨rfl, _⟩ := beU_some e2
    obtain ⟨h1, rfl⟩ := ih _ _ _ e3
    exact ⟨by simp [h1], by simp⟩

/-- C22: an ack block is accepted only if its size field is exactly four bytes per entry, and then it is exactly its entries. -/
theorem C22_ack_block_exact (i r : Bytes) (b : Block) (h : parseAck i = some (b, r)) :
    ∃ acks : List (Nat × Nat), b = .ack acks ∧ 4 * acks.length < 2 ^ 16 ∧
      i = be 2 (4 * acks.length) ++ (acks.map (fun p => be 2 p.1 ++ be 2 p.2)).flatten ++ r := by
  simp only [parseAck] at h
  unbind h with ⟨size, r1⟩ e1
  obtain ⟨rfl, hs⟩ := beU_some e1
  split at h
  · simp at h
  · rename_i hm
    unbind h with ⟨acks, r2⟩ e2
    simp only [Option.pure_def, Option.some.injEq, Prod.mk.injEq] at h
    obtain ⟨rfl, rfl⟩ := h
    obtain ⟨h1, rfl⟩ := takeAcks_some _ _ _ _ e2
    have : 4 * acks.length = size := by omega
    exact ⟨acks, rfl, by rw [this]; omega, by rw [this]; simp⟩

example : parseAck (be 2 4 ++ be 2 1 ++ be 2 2 ++ [9]) = some (.ack [(1, 2)], [9]) := by decide +kernel

/-- C22: the tag of an encrypted garlic message is the 64-bit little-endian number after the four length bytes. -/
theorem C22_garlic_tag (len rest : Bytes) (n : Nat) (hl : len.length = 4) (hn : n < 2 ^ 64) :
    garlicTag (len ++ (be 8 n).reverse ++ rest) = some n := by
  have h1 : 12 ≤ (len ++ (be 8 n).reverse ++ rest).length := by simp [hl]; omega
  have h2 : ((len ++ (be 8 n).reverse ++ rest).drop 4).take 8 = (be 8 n).reverse := by
    rw [List.append_assoc, ← hl, List.drop_left]
    exact List.take_left' (by simp)
  simp only [garlicTag, h1, if_true, h2, List.reverse_reverse, unbe_be]
  rw [Nat.mod_eq_of_lt (by simpa using hn)]

end Emissary.Garlic

namespace Emissary.Build
open Emissary

/-- C23: a tunnel build message is one byte with the number of records, then the records; record `i` of size `k` is found at
offset `1 + i * k`. -/
theorem C23_build_message_layout (records : List Bytes) (k : Nat) (hk : ∀ r ∈ records, r.length = k) (hn : records.length < 256) :
    (fromRecords records).head? = some (UInt8.ofNat records.length) ∧ (fromRecords records).length = 1 + records.length * k ∧
    ∀ (i : Nat) (r : Bytes), records[i]? = some r → ((fromRecords records).drop (1 + i * k)).take k = r := by
  have hb : be 1 records.length = [UInt8.ofNat records.length] := by simp [be]
  have hlen : ∀ (l : List Bytes), (∀ r ∈ l, r.length = k) → l.flatten.length = l.length * k := by
    intro l
    induction l with
    | nil => simp
    | cons a l ih =>
      intro h
      rw [List.flatten_cons, List.length_append, ih (fun r hr => h r (by simp [hr])), h a (by simp), List.length_cons, Nat.succ_mul]
      omega
  refine ⟨by simp [fromRecords, hb], by simp [fromRecords, hb, hlen records hk]; omega, ?_⟩
  intro i r hr
  simp only [fromRecords, hb]
  have : ∀ (l : List Bytes) (i : Nat), (∀ r ∈ l, r.length = k) → l[i]? = some r → (l.flatten.drop (i * k)).take k = r := by
    intro l
    induction l with
    | nil => intro i _ h; simp at h
    | cons a l ih =>
      intro i h hi
      cases i with
      | zero =>
        simp only [List.getElem?_cons_zero, Option.some.injEq] at hi
        subst hi
        rw [Nat.zero_mul, List.drop_zero, List.flatten_cons]
        exact List.take_left' (h a (by simp))
      | succ i =>
        simp only [List.getElem?_cons_succ] at hi
        have ha := h a (by simp)
        rw [List.flatten_cons, Nat.succ_mul, Nat.add_comm (i * k) k, ← List.drop_drop]
        have : (a ++ l.flatten).drop k = l.flatten := List.drop_left' ha
        rw [this]
        exact ih i (fun r hr => h r (by simp [hr])) hi
  have h1 : ([UInt8.ofNat records.length] ++ records.flatten).drop (1 + i * k) = records.flatten.drop (i * k) := by
    rw [← List.drop_drop]; rfl
  rw [h1]
  exact this records i hk hr

example : ((fromRecords [[1, 2], [3, 4], [5, 6]]).drop (1 + 1 * 2)).take 2 = [3, 4] :=
  (C23_build_message_layout [[1, 2], [3, 4], [5, 6]] 2 (by decide) (by decide)).2.2 1 [3, 4] rfl

end Emissary.Build

namespace Emissary.Prim
open Emissary

/-- C25: an entry is written as length, key, `=`, length, value, `;`. -/
theorem C25_mapping_layout (m : Mapping) (hk : m.key.length < 256) (hv : m.value.length < 256) :
    m.serialize = [UInt8.ofNat m.key.length] ++ m.key ++ [61] ++ [UInt8.ofNat m.value.length] ++ m.value ++ [59] := by
  simp [Mapping.serialize, Str.serialize, be]

/-- The address that is used of those published for one transport. -/
def chosen (as : List RouterAddress) : Option RouterAddress :=
  match as.find? (fun a => a.socket.isSome) with
  | some a => some a
  | none => as.getLast?

theorem chosen_snoc (as : List RouterAddress) (a : RouterAddress) : chosen (as ++ [a]) = preferAddr (chosen as) a := by
  simp only [chosen, List.find?_append]
  cases h : as.find? (fun a => a.socket.isSome) with
  | some b =>
    have := List.find?_some h
    simp only [Option.some_or, preferAddr]
    have hb : b.socket.isNone = false := by simp only [Option.isSome_iff_ne_none, ne_eq] at this; cases hs : b.socket <;> simp_all
    rw [hb]; rfl
  | none =>
    have hn : ∀ b, as.getLast? = some b → b.socket.isNone = true := by
      intro b hb
      have := List.find?_eq_none.mp h b (List.mem_of_getLast? hb)
      cases hs : b.socket <;> simp_all
    simp only [Option.none_or, List.find?_cons, List.find?_nil, List.getLast?_append, List.getLast?_singleton]
    cases hl : as.getLast? with
    | none => cases a.socket.isSome <;> simp [preferAddr]
    | some b => cases a.socket.isSome <;> simp [preferAddr, hn b hl]

/-- C57: of the addresses a router publishes for a transport, the first with a socket address is used, and the last if none has one. -/
theorem C57_published_address_preferred (as : List RouterAddress) :
    (as.foldl Addresses.insert { ntcp2 := none, ssu2 := none }).ntcp2 =
      chosen (as.filter (fun a => a.transport = .ntcp2)) ∧
    (as.foldl Addresses.insert { ntcp2 := none, ssu2 := none }).ssu2 =
      chosen (as.filter (fun a => a.transport = .ssu2)) := by
  induction as using List.reverseRecOn with
  | nil => exact ⟨rfl, rfl⟩
  | append_singleton as a ih =>
    simp only [List.foldl_append, List.foldl_cons, List.foldl_nil, List.filter_append, Addresses.insert]
    cases ht : a.transport
    · simp [ht, ih.1, ih.2, chosen_snoc, List.filter_cons]
    · simp [ht, ih.1, ih.2, chosen_snoc, List.filter_cons]

/-- C57: that is what parsing the address list does. -/
theorem C57_parse_addresses (E : Env) (n : Nat) : ∀ (s : Addresses) (i r : Bytes) (t : Addresses), RouterInfo.parseAddrs E n s i = some (t, r) →
    ∃ as : List RouterAddress, as.length = n ∧ t = as.foldl Addresses.insert s := by
  induction n with
  | zero =>
    intro s i r t h
    simp only [RouterInfo.parseAddrs, Option.some.injEq, Prod.mk.injEq] at h
    exact ⟨[], rfl, h.1.symm⟩
  | succ n ih =>
    intro s i r t h
    simp only [RouterInfo.parseAddrs] at h
    unbind h with ⟨a, r1⟩ e1
    obtain ⟨as, h1, h2⟩ := ih _ _ _ _ h
    exact ⟨a :: as, by simp [h1], h2⟩

/-- The name of an option, given as text in ASCII. -/
def optionName (s : String) : Str := s.toList.map fun c => c.toNat.toUInt8

/-- C73: the socket address of an address that was read is made of its options `host` and `port`, if there are both and they can be read. -/
theorem C73_socket (E : Env) (i rest : Bytes) (a : RouterAddress) (h : RouterAddress.parse E i = some (a, rest)) (ip : Bytes) (port : Nat) :
    a.socket = some (ip, port) ↔ ∃ host p, a.options.get (optionName "host") = some host ∧ a.options.get (optionName "port") = some p ∧
      parseUInt 65535 p = some port ∧ E.parseIp host = some ip := by
  rw [show optionName "host" = kHost by decide +kernel, show optionName "port" = kPort by decide +kernel]
  have hs : a.socket = socketOf E a.options := by
    simp only [RouterAddress.parse] at h
    unbind h with ⟨c, r1⟩ e1
    unbind h with ⟨x, r2⟩ e2
    unbind h with ⟨n, r3⟩ e3
    unbind h with ⟨o, r4⟩ e4
    unbind h with t e5
    cases h
    rfl
  rw [hs]
  unfold socketOf
  constructor
  · intro hx
    unbind hx with host e1
    unbind hx with p e2
    unbind hx with q e3
    unbind hx with z e4
    cases hx
    exact ⟨host, p, e1, e2, e3, e4⟩
  · rintro ⟨host, p, e1, e2, e3, e4⟩
    simp [e1, e2, e3, e4]

example : let a : RouterAddress := ⟨10, 0, .ntcp2, [⟨optionName "host", [49]⟩, ⟨optionName "port", [56, 56]⟩], some ([49], 88)⟩
    RouterAddress.parse Env.sample a.serialize = some (a, []) := by decide +kernel

/-- C73: a router is considered reachable exactly when its capabilities contain neither `U` nor `H` and it publishes an address with both
a host and a port. -/
theorem C73_reachable (r : RouterInfo) (caps : Str) (hc : r.capabilities = Capabilities.parse caps) :
    r.isReachable = true ↔
      (85 ∉ caps ∧ 72 ∉ caps) ∧
      ∃ a, (r.addresses.ntcp2 = some a ∨ r.addresses.ssu2 = some a) ∧
        a.options.get (optionName "host") ≠ none ∧ a.options.get (optionName "port") ≠ none := by
  rw [show optionName "host" = kHost by decide +kernel, show optionName "port" = kPort by decide +kernel]
  simp only [RouterInfo.isReachable, hc, Capabilities.parse]
  have hb : (caps.contains 85 || caps.contains 72) = false ↔ (85 ∉ caps ∧ 72 ∉ caps) := by
    simp [List.contains_eq_mem]
  rw [Bool.and_eq_true, Bool.not_eq_true', hb]
  apply and_congr Iff.rfl
  rw [Bool.or_eq_true]
  constructor
  · rintro (h | h)
    · cases ha : r.addresses.ntcp2 with
      | none => rw [ha] at h; simp at h
      | some a => rw [ha] at h; exact ⟨a, Or.inl rfl, by simpa [Option.isSome_iff_ne_none] using h⟩
    · cases ha : r.addresses.ssu2 with
      | none => rw [ha] at h; simp at h
      | some a => rw [ha] at h; exact ⟨a, Or.inr rfl, by simpa [Option.isSome_iff_ne_none] using h⟩
  · rintro ⟨a, ha | ha, h⟩
    · left; rw [ha]; simpa [Option.isSome_iff_ne_none] using h
    · right; rw [ha]; simpa [Option.isSome_iff_ne_none] using h

/-- Bandwidth letters of the I2P specification, lowest class first. -/
def bandwidthLetters : List (UInt8 × Bandwidth) :=
  [(75, .K), (76, .L), (77, .M), (78, .N), (79, .O), (80, .P), (88, .X)]

/-- C73: the bandwidth class is that of the lowest bandwidth letter present; floodfill means an `f`; a router is usable unless it
publishes `E` or `G`. -/
theorem C73_capability_letters (caps : Str) :
    (Capabilities.parse caps).bandwidth = (bandwidthLetters.find? (fun p => decide (p.1 ∈ caps))).map (·.2) ∧
    ((Capabilities.parse caps).floodfill = true ↔ 102 ∈ caps) ∧
    ((Capabilities.parse caps).usable = true ↔ 69 ∉ caps ∧ 71 ∉ caps) ∧
    ((Capabilities.parse caps).reachable = true ↔ 85 ∉ caps ∧ 72 ∉ caps) := by
  refine ⟨?_, by simp [Capabilities.parse], by simp [Capabilities.parse], by simp [Capabilities.parse]⟩
  simp only [Capabilities.parse, Bandwidth.parse, bandwidthLetters, List.find?_cons, List.find?_nil, List.contains_eq_mem]
  by_cases h1 : (75 : UInt8) ∈ caps <;> by_cases h2 : (76 : UInt8) ∈ caps <;> by_cases h3 : (77 : UInt8) ∈ caps <;>
  by_cases h4 : (78 : UInt8) ∈ caps <;> by_cases h5 : (79 : UInt8) ∈ caps <;> by_cases h6 : (80 : UInt8) ∈ caps <;>
  by_cases h7 : (88 : UInt8) ∈ caps <;> simp [h1, h2, h3, h4, h5, h6, h7]

/-- C73, speed: a router counts as fast exactly when it publishes one of O, P and X and none of the lower classes K, L, M and N, and as standard exactly when
it publishes one of those. -/
theorem C73_speed (caps : Str) :
    ((Capabilities.parse caps).isFast = true ↔ (79 ∈ caps ∨ 80 ∈ caps ∨ 88 ∈ caps) ∧ 75 ∉ caps ∧ 76 ∉ caps ∧ 77 ∉ caps ∧ 78 ∉ caps) ∧
    ((Capabilities.parse caps).isStandard = true ↔ 75 ∈ caps ∨ 76 ∈ caps ∨ 77 ∈ caps ∨ 78 ∈ caps) := by
  simp only [Capabilities.isFast, Capabilities.isStandard, Capabilities.parse, Bandwidth.parse, List.contains_eq_mem, decide_eq_true_eq]
  by_cases h1 : (75 : UInt8) ∈ caps
  · simp [h1]
  · by_cases h2 : (76 : UInt8) ∈ caps
    · simp [h1, h2]
    · by_cases h3 : (77 : UInt8) ∈ caps
      · simp [h1, h2, h3]
      · by_cases h4 : (78 : UInt8) ∈ caps
        · simp [h1, h2, h3, h4]
        · by_cases h5 : (79 : UInt8) ∈ caps
          · simp [h1, h2, h3, h4, h5]
          · by_cases h6 : (80 : UInt8) ∈ caps
            · simp [h1, h2, h3, h4, h5, h6]
            · by_cases h7 : (88 : UInt8) ∈ caps <;> simp [h1, h2, h3, h4, h5, h6, h7]

example : (Capabilities.parse [80, 82]).isFast = true ∧ (Capabilities.parse [76, 79]).isFast = false ∧ (Capabilities.parse [76, 79]).isStandard = true := by decide
/-- "LRf": a reachable floodfill router of class L; "OfH" is hidden. -/
example : (Capabilities.parse [76, 82, 102]).bandwidth = some .L ∧ (Capabilities.parse [76, 82, 102]).reachable = true ∧
    (Capabilities.parse [79, 102, 72]).reachable = false := by decide

end Emissary.Prim

namespace Emissary.Ntcp2
open Emissary Emissary.I2np

/-- C30: an options block is read by its size field: bytes beyond the twelve defined ones are skipped. -/
theorem C30_options_extra_skipped (a b c d e f g h : Nat) (extra r : Bytes) (ha : a < 256) (hb : b < 256) (hc : c < 256)
    (hd : d < 256) (he : e < 65536) (hf : f < 65536) (hg : g < 65536) (hh : h < 65536) (hs : 12 + extra.length < 65536) :
    parseBlock (be 1 1 ++ be 2 (12 + extra.length) ++ be 1 a ++ be 1 b ++ be 1 c ++ be 1 d ++ be 2 e ++ be 2 f ++ be 2 g ++
      be 2 h ++ extra ++ r) = some (.options a b c d e f g h, r) := by
  have m1 : ∀ x, x < 256 → x % 256 ^ 1 = x := fun x hx => Nat.mod_eq_of_lt (by simpa using hx)
  have m2 : ∀ x, x < 65536 → x % 256 ^ 2 = x := fun x hx => Nat.mod_eq_of_lt (by simpa using hx)
  have hsk : skipExtra (12 + extra.length) 12 (extra ++ r) = some ((), r) := by
    simp only [skipExtra]
    split
    · rw [takeN_append (by omega)]; rfl
    · have : extra = [] := List.length_eq_zero_iff.mp (by omega)
      subst this; rfl
  simp only [parseBlock, parseOptions, List.append_assoc, beU_be, bind_some_pair, m1 _ ha, m1 _ hb, m1 _ hc, m1 _ hd, m2 _ he, m2 _ hf,
    m2 _ hg, m2 _ hh, m2 _ hs, hsk]
  rfl

/-- C30: likewise for a termination block. -/
theorem C30_termination_extra_skipped (v reason : Nat) (extra r : Bytes) (hv : v < 2 ^ 64) (hr : reason < 256)
    (hs : 9 + extra.length < 65536) :
    parseBlock (be 1 4 ++ be 2 (9 + extra.length) ++ be 8 v ++ be 1 reason ++ extra ++ r) = some (.termination v reason, r) := by
  have m1 : reason % 256 ^ 1 = reason := Nat.mod_eq_of_lt (by simpa using hr)
  have m2 : (9 + extra.length) % 256 ^ 2 = 9 + extra.length := Nat.mod_eq_of_lt (by simpa using hs)
  have m8 : v % 256 ^ 8 = v := Nat.mod_eq_of_lt (by simpa using hv)
  have hsk : skipExtra (9 + extra.length) 9 (extra ++ r) = some ((), r) := by
    simp only [skipExtra]
    split
    · rw [takeN_append (by omega)]; rfl
    · have : extra = [] := List.length_eq_zero_iff.mp (by omega)
      subst this; rfl
  simp only [parseBlock, parseTermination, List.append_assoc, beU_be, bind_some_pair, m1, m2, m8, hsk]
  rfl

/-- C32: a frame that contains a termination block ends the session with the reason the peer gave. -/
theorem C32_termination_reason (E : Env) (s : Reader) (ct data : Bytes) (pre post : List Block) (v reason : Nat)
    (hd : (s.cipher.decrypt E.A [] ct).1 = some data) (hp : parseBlocks data = some (pre ++ .termination v reason :: post))
    (hpre : ∀ b ∈ pre, ∀ v r, b ≠ .termination v r) :
    (s.frame E ct).ended = some (.remote reason) ∧ (s.frame E ct).out = s.out := by
  have ht : terminationOf (pre ++ .termination v reason :: post) = some reason := by
    have h0 : terminationOf pre = none := by
      simp only [terminationOf, List.findSome?_eq_none_iff]
      intro b hb
      cases b with
      | termination v' r' => exact absurd rfl (hpre _ hb v' r')
      | _ => rfl
    have h1 : terminationOf (pre ++ .termination v reason :: post) =
        (terminationOf pre).or (terminationOf (.termination v reason :: post)) := List.findSome?_append
    rw [h1, h0]; rfl
  cases hdec : s.cipher.decrypt E.A [] ct with
  | mk plain cipher =>
    rw [hdec] at hd
    simp only at hd
    subst hd
    simp only [Reader.frame, hdec, hp, ht]
    exact ⟨trivial, trivial⟩

/-- C68: with the clock at `now`, the messages handed on from a frame are exactly those with an expiration not in the past, in order. -/
theorem C68_only_expired_dropped (E : Env) (now : Duration) (hE : E.expired = fun m => m.isExpired now) (bs : List Block) :
    messagesOf E bs = (bs.filterMap (fun b => match b with | .i2np m => some m | _ => none)).filter (fun m => decide (now ≤ m.expiration)) := by
  induction bs with
  | nil => rfl
  | cons b bs ih =>
    simp only [messagesOf] at ih ⊢
    cases b with
    | i2np m =>
      simp only [List.filterMap_cons, hE, Message.isExpired]
      by_cases h : m.expiration < now
      · have : ¬ now ≤ m.expiration := by exact Nat.not_le.mpr h
        simp only [h, decide_true, if_true, List.filter_cons, this, decide_false, Bool.false_eq_true, if_false]
        rw [← ih]; simp only [hE, Message.isExpired]
      · have : now ≤ m.expiration := Nat.not_lt.mp h
        simp only [h, decide_false, Bool.false_eq_true, if_false, List.filter_cons, this, decide_true, if_true]
        rw [← ih]; simp only [hE, Message.isExpired]
    | _ => simpa [List.filterMap_cons] using ih

end Emissary.Ntcp2

namespace Emissary.Tunnel
open Emissary

/-- Bytes of the delivery instructions of a block (I2P tunnel message specification). -/
def headerLen : Kind → Nat
  | .unfragmented .loc => 1
  | .unfragmented (.router _) => 1 + 32
  | .unfragmented (.tunnel ..) => 1 + 4 + 32
  | .first _ .loc => 1 + 4
  | .first _ (.router _) => 1 + 32 + 4
  | .first _ (.tunnel ..) => 1 + 4 + 32 + 4
  | .middle .. | .last .. => 1 + 4

theorem parseSized_length {k : Kind} {i r : Bytes} {b : Block} (h : parseSized k i = some (b, r)) :
    b.kind = k ∧ i.length = 2 + b.msg.length + r.length := by
  simp only [parseSized] at h
  unbind h with ⟨size, r1⟩ e1
  unbind h with ⟨m, r2⟩ e2
  simp only [Option.pure_def, Option.some.injEq, Prod.mk.injEq] at h
  obtain ⟨rfl, rfl⟩ := h
  obtain ⟨rfl, _⟩ := beU_some e1
  obtain ⟨rfl, _⟩ := takeN_some e2
  exact ⟨rfl, by simp; omega⟩

theorem parseBlock_length {i r : Bytes} {b : Block} (h : parseBlock i = some (b, r)) :
    i.length = headerLen b.kind + 2 + b.msg.length + r.length := by
  simp only [parseBlock] at h
  unbind h with ⟨flag, r1⟩ e1
  obtain ⟨rfl, _⟩ := beU_some e1
  split at h
  · simp only [parseFollowOn] at h
    unbind h with ⟨mid, r2⟩ e2
    obtain ⟨rfl, _⟩ := beU_some e2
    obtain ⟨hk, hl⟩ := parseSized_length h
    rw [hk]
    split <;> simp [headerLen] <;> omega
  · unbind h with ⟨di, r2⟩ e2
    unbind h with ⟨k, r3⟩ e3
    obtain ⟨hk, hl⟩ := parseSized_length h
    have hdi : r1.length = (match di with | .loc => 0 | .router _ => 32 | .tunnel .. => 36) + r2.length := by
      simp only [parseDI] at e2
      split at e2
      · simp only [Option.some.injEq, Prod.mk.injEq] at e2; obtain ⟨rfl, rfl⟩ := e2; simp
      · unbind e2 with ⟨id, r4⟩ e4
        unbind e2 with ⟨hh, r5⟩ e5
        simp only [Option.pure_def, Option.some.injEq, Prod.mk.injEq] at e2
        obtain ⟨rfl, rfl⟩ := e2
        obtain ⟨rfl, _⟩ := beU_some e4
        obtain ⟨rfl, hl5⟩ := takeN_some e5
        simp [hl5]; omega
      · unbind e2 with ⟨hh, r5⟩ e5
        simp only [Option.pure_def, Option.some.injEq, Prod.mk.injEq] at e2
        obtain ⟨rfl, rfl⟩ := e2
        obtain ⟨rfl, hl5⟩ := takeN_some e5
        simp [hl5]
      · simp at e2
    simp only [parseKind] at e3
    split at e3
    · unbind e3 with ⟨mid, r4⟩ e4
      simp only [Option.pure_def, Option.some.injEq, Prod.mk.injEq] at e3
      obtain ⟨rfl, rfl⟩ := e3
      obtain ⟨rfl, _⟩ := beU_some e4
      rw [hk]
      cases di <;> simp [headerLen] at hdi ⊢ <;> omega
    · simp only [Option.some.injEq, Prod.mk.injEq] at e3
      obtain ⟨rfl, rfl⟩ := e3
      rw [hk]
      cases di <;> simp [headerLen] at hdi ⊢ <;> omega

/-- C15: an accepted payload is used up completely by its blocks: nothing is skipped and nothing is left over. -/
theorem C15_whole_payload_consumed (i : Bytes) (bs : List Block) (h : parseBlocks i = some bs) :
    bs ≠ [] ∧ i.length = (bs.map (fun b => headerLen b.kind + 2 + b.msg.length)).sum := by
  suffices hf : ∀ fuel i bs, parseInner fuel i = some bs →
      bs ≠ [] ∧ i.length = (bs.map (fun b => headerLen b.kind + 2 + b.msg.length)).sum from hf _ _ _ h
  intro fuel
  induction fuel with
  | zero => intro i bs h; simp [parseInner] at h
  | succ fuel ih =>
    intro i bs h
    simp only [parseInner] at h
    unbind h with ⟨b, r⟩ e
    have hl := parseBlock_length e
    split at h
    · rename_i hr
      simp only [Option.some.injEq] at h
      subst h
      have : r = [] := List.isEmpty_iff.mp hr
      subst this
      exact ⟨by simp, by simpa using hl⟩
    · unbind h with bs' e'
      simp only [Option.pure_def, Option.some.injEq] at h
      subst h
      have := (ih _ _ e').2
      exact ⟨by simp, by simp only [List.map_cons, List.sum_cons]; omega⟩

example : ∃ bs, parseBlocks ([0, 0, 2, 7, 8] ++ [128 + 3, 0, 0, 0, 1, 0, 1, 9]) = some bs ∧ bs.length = 2 := by decide +kernel

end Emissary.Tunnel
