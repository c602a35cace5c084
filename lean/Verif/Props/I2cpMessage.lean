import Verif.Model.I2cpMessage
import Verif.Props.I2cpSocket
import Verif.Props.Primitives
import Verif.Lemmas.Codec
/-!
# I2CP messages

* C181: a client can read what the router sends to it.
* C182: the router understands what a client sends as the client meant it.
-/
namespace Emissary.I2cpMessage

open Emissary.Prim (Destination Env Mapping Options Str LeaseSet2 Lease)
open Emissary.I2cpSocket (Msg encode)

/-! ## C181 -/

/-- How a client takes a message from the bytes that it has: four bytes for the size of the body, one for the type, the body. -/
def cut (b : Bytes) : Option ((UInt8 × Bytes) × Bytes) :=
  if b.length < 5 then none
  else if b.length < 5 + unbe (b.take 4) then none
  else some ((b.getD 4 0, (b.drop 5).take (unbe (b.take 4))), b.drop (5 + unbe (b.take 4)))

theorem cut_frame (n : Nat) (ty : UInt8) (a rest : Bytes) (hn : a.length = n) (h : n < 2 ^ 32) : cut (be 4 n ++ ty :: (a ++ rest)) = some ((ty, a), rest) := by
  have h4 : (be 4 n ++ ty :: (a ++ rest)).take 4 = be 4 n := by
    rw [List.take_append_of_le_length (by simp), List.take_of_length_le (by simp)]
  have hu : unbe (be 4 n) = n := by rw [unbe_be, Nat.mod_eq_of_lt (by simpa using h)]
  have hl : (be 4 n ++ ty :: (a ++ rest)).length = 5 + n + rest.length := by
    simp [hn]
    omega
  have hd : (be 4 n ++ ty :: (a ++ rest)).drop 5 = a ++ rest := by
    rw [show be 4 n ++ ty :: (a ++ rest) = (be 4 n ++ [ty]) ++ (a ++ rest) by simp]
    exact List.drop_left' (by simp)
  unfold cut
  rw [h4, hu, if_neg (by omega), if_neg (by omega), hd, ← List.drop_drop, hd, List.take_left' hn, List.drop_left' hn]
  simp [List.getD]

/-- The date and the version of the router. -/
theorem C181_set_date (date : Nat) (version rest : Bytes) (h : version.length ≤ 255) :
    cut (mkSetDate date version ++ rest) = some ((33, be 8 date ++ be 1 version.length ++ version), rest) := by
  have := cut_frame (8 + (Str.serialize version).length) 33 (be 8 date ++ be 1 version.length ++ version) rest (by simp [Str.serialize]; try omega) (by simp [Str.serialize]; omega)
  rw [← this]
  unfold mkSetDate Str.serialize
  simp [be]

/-- The limits. -/
theorem C181_bandwidth (rest : Bytes) : ∃ body, cut (mkBandwidthLimits ++ rest) = some ((23, body), rest) ∧ body.length = 64 := by
  refine ⟨mkBandwidthLimits.drop 5, ?_, by decide⟩
  rw [← cut_frame 64 23 (mkBandwidthLimits.drop 5) rest (by decide) (by decide)]
  rw [show mkBandwidthLimits = be 4 64 ++ 23 :: mkBandwidthLimits.drop 5 by decide]
  simp [be]

/-- A message for the client: session, id, size and data. -/
theorem C181_payload (sid id : Nat) (data rest : Bytes) (h : data.length < 2 ^ 32 - 10) :
    cut (mkPayload sid id data ++ rest) = some ((31, be 2 sid ++ be 4 id ++ be 4 data.length ++ data), rest) := by
  rw [← cut_frame (2 + 4 + 4 + data.length) 31 (be 2 sid ++ be 4 id ++ be 4 data.length ++ data) rest (by simp; omega) (by omega)]
  unfold mkPayload
  simp [be]

/-- The state of a session. -/
theorem C181_status (sid : Nat) (k : Status) (rest : Bytes) : cut (mkStatus sid k ++ rest) = some ((20, be 2 sid ++ be 1 k.code), rest) := by
  rw [← cut_frame 3 20 (be 2 sid ++ be 1 k.code) rest (by simp) (by decide)]
  unfold mkStatus
  simp [be]

/-- Messages one after the other are read as they were sent, given that each of them is well framed. -/
theorem C181_all_partial (ms : List (UInt8 × Bytes)) (h : ∀ m ∈ ms, m.2.length < 2 ^ 32) (rest : Bytes) :
    ∀ m ms', ms = m :: ms' → cut (I2cpSocket.stream ms ++ rest) = some (m, I2cpSocket.stream ms' ++ rest) := by
  rintro m ms' rfl
  rw [← cut_frame m.2.length m.1 m.2 (I2cpSocket.stream ms' ++ rest) rfl (h m List.mem_cons_self)]
  show cut ((be 4 m.2.length ++ m.1 :: m.2) ++ I2cpSocket.stream ms' ++ rest) = _
  simp

/-- The body of an answer to a lookup. -/
def hostBody (sid req : Nat) (k : Reply) : Bytes := be 2 sid ++ be 4 req ++ k.bytes

/-- The size of an answer to a lookup is one too small: its last byte is taken for the first byte of the next message. -/
theorem C181_host_reply_violated (sid req : Nat) (k : Reply) (rest : Bytes) (h : (hostBody sid req k).length < 2 ^ 32) :
    ∃ last, hostBody sid req k = (hostBody sid req k).dropLast ++ [last] ∧ cut (mkHostReply sid req k ++ rest) = some ((39, (hostBody sid req k).dropLast), last :: rest) := by
  have hl : (hostBody sid req k).length = 6 + k.len := by
    unfold hostBody
    cases k <;> simp [Reply.bytes, Reply.len] <;> omega
  have hne : hostBody sid req k ≠ [] := by
    intro e
    rw [e] at hl
    simp at hl
    omega
  refine ⟨(hostBody sid req k).getLast hne, (List.dropLast_concat_getLast hne).symm, ?_⟩
  rw [← cut_frame (2 + 3 + k.len) 39 (hostBody sid req k).dropLast _ (by rw [List.length_dropLast, hl]; omega) (by omega)]
  have e : (hostBody sid req k).dropLast ++ ((hostBody sid req k).getLast hne :: rest) = hostBody sid req k ++ rest := by
    conv => rhs; rw [← List.dropLast_concat_getLast hne]
    simp
  rw [e]
  unfold mkHostReply hostBody
  simp [be]

/-- After the answer that a lookup failed the client waits for a message of more than 16 million bytes: whatever the router sends after it is not seen. -/
theorem C181_deaf_violated (sid req : Nat) (rest : Bytes) (h : rest.length < 2 ^ 24) :
    ∃ f, cut (mkHostReply sid req (.failure 1) ++ rest) = some (f, 1 :: rest) ∧ cut (1 :: rest) = none := by
  refine ⟨(39, be 2 sid ++ be 4 req), ?_, ?_⟩
  · rw [← cut_frame 6 39 (be 2 sid ++ be 4 req) (1 :: rest) (by simp) (by decide)]
    unfold mkHostReply
    simp [be, Reply.bytes, Reply.len]
  · unfold cut
    split
    · rfl
    · rename_i hlen
      have : 2 ^ 24 ≤ unbe ((1 :: rest).take 4) := by
        match rest, hlen with
        | a :: b :: c :: r, _ =>
          show 2 ^ 24 ≤ unbe [1, a, b, c]
          have h1 : unbe [1, a, b, c] = (1 : UInt8).toNat * 256 ^ 3 + unbe [a, b, c] := by simp [unbe]
          rw [h1, show (1 : UInt8).toNat * 256 ^ 3 = 2 ^ 24 by decide]
          exact Nat.le_add_right _ _
        | [], hlen => simp at hlen
        | [_], hlen => simp at hlen
        | [_, _], hlen => simp at hlen
      rw [if_pos (by simp only [List.length_cons]; omega)]

/-- The body of the request for a lease set. -/
def leaseBody (sid : Nat) (leases : List Lease) : Bytes := be 2 sid ++ be 1 leases.length ++ (leases.map Lease.serialize1).flatten

theorem leases_length (leases : List Lease) (h : ∀ l ∈ leases, l.router.length = 32) : ((leases.map Lease.serialize1).flatten).length = leases.length * 44 := by
  induction leases with
  | nil => rfl
  | cons l ls ih =>
    rw [List.map_cons, List.flatten_cons, List.length_append, ih (fun x hx => h x (List.mem_cons_of_mem _ hx))]
    simp [Lease.serialize1, h l List.mem_cons_self]
    omega

/-- The size of the request for a lease set is two too small: its last two bytes are taken for the first bytes of the next message. -/
theorem C181_lease_request_violated (sid : Nat) (leases : List Lease) (hr : ∀ l ∈ leases, l.router.length = 32) (h : 0 < leases.length) (h2 : leases.length < 2 ^ 24) (rest : Bytes) :
    ∃ m a b, mkLeaseRequest sid leases = some m ∧ leaseBody sid leases = a ++ b ∧ b.length = 2 ∧ cut (m ++ rest) = some ((37, a), b ++ rest) := by
  have hll := leases_length leases hr
  have hl : (leaseBody sid leases).length = 3 + leases.length * 44 := by
    unfold leaseBody
    simp only [List.length_append, hll, be_length]
  refine ⟨be 4 (1 + leases.length * 44) ++ be 1 37 ++ leaseBody sid leases, (leaseBody sid leases).take (1 + leases.length * 44), (leaseBody sid leases).drop (1 + leases.length * 44), ?_, (List.take_append_drop _ _).symm, ?_, ?_⟩
  · unfold mkLeaseRequest
    rw [if_neg (by intro e; rw [e] at h; simp at h)]
    unfold leaseBody
    simp
  · rw [List.length_drop, hl]
    omega
  · rw [← cut_frame (1 + leases.length * 44) 37 ((leaseBody sid leases).take (1 + leases.length * 44)) _ (by rw [List.length_take, hl]; omega) (by omega),
      ← List.append_assoc ((leaseBody sid leases).take _), List.take_append_drop]
    simp [be]

/-- Without a lease the request cannot be built. -/
theorem C181_no_lease_violated (sid : Nat) : mkLeaseRequest sid [] = none := rfl

/-! ## C182 -/

theorem parse_3 (E : Env) (chk : Bool) (i : Bytes) : parse E chk 3 i = empty chk (destroySession i) := by simp [parse]
theorem parse_8 (E : Env) (chk : Bool) (i : Bytes) : parse E chk 8 i = empty chk (some (.getBandwidthLimits, i)) := by simp [parse]
theorem parse_1 (E : Env) (chk : Bool) (i : Bytes) : parse E chk 1 i = plain (createSession E i) := by simp [parse]
theorem parse_38 (E : Env) (chk : Bool) (i : Bytes) : parse E chk 38 i = plain (hostLookup E i) := by simp [parse]
theorem parse_41 (E : Env) (chk : Bool) (i : Bytes) : parse E chk 41 i = plain (createLeaseSet2 E i) := by simp [parse]
theorem parse_36 (E : Env) (chk : Bool) (i : Bytes) : parse E chk 36 i = plain (sendMessageExpires E i) := by simp [parse]

/-- A lookup of a hash. -/
theorem C182_lookup_hash (E : Env) (chk : Bool) (sid req timeout : Nat) (hash rest : Bytes) (h1 : sid < 2 ^ 16) (h2 : req < 2 ^ 32) (h3 : timeout < 2 ^ 32) (hh : hash.length = 32) :
    parse E chk 38 (be 2 sid ++ be 4 req ++ be 4 timeout ++ be 1 0 ++ hash ++ rest) = .ok (.hostLookup sid req timeout (.hash hash)) := by
  rw [parse_38]
  have : hostLookup E (be 2 sid ++ be 4 req ++ be 4 timeout ++ be 1 0 ++ hash ++ rest) = some (.hostLookup sid req timeout (.hash hash)) := by
    unfold hostLookup
    simp only [List.append_assoc, beU_be, bind_some_pair, request, takeN_append hh]
    rw [Nat.mod_eq_of_lt (by omega : sid < 256 ^ 2), Nat.mod_eq_of_lt (by omega : req < 256 ^ 4), Nat.mod_eq_of_lt (by omega : timeout < 256 ^ 4)]
    rfl
  rw [this]
  rfl

/-- A lookup of a name. -/
theorem C182_lookup_name (E : Env) (chk : Bool) (sid req timeout : Nat) (name rest : Bytes) (h1 : sid < 2 ^ 16) (h2 : req < 2 ^ 32) (h3 : timeout < 2 ^ 32) (hl : name.length ≤ 255) (hu : E.utf8 name = true) :
    parse E chk 38 (be 2 sid ++ be 4 req ++ be 4 timeout ++ be 1 1 ++ Str.serialize name ++ rest) = .ok (.hostLookup sid req timeout (.name name)) := by
  rw [parse_38]
  have : hostLookup E (be 2 sid ++ be 4 req ++ be 4 timeout ++ be 1 1 ++ Str.serialize name ++ rest) = some (.hostLookup sid req timeout (.name name)) := by
    unfold hostLookup
    simp only [List.append_assoc, beU_be, bind_some_pair, request]
    rw [Nat.mod_eq_of_lt (by omega : sid < 256 ^ 2), Nat.mod_eq_of_lt (by omega : req < 256 ^ 4), Nat.mod_eq_of_lt (by omega : timeout < 256 ^ 4)]
    rw [if_neg (by decide), if_pos (by decide), Prim.C24_string_roundtrip E name rest hl hu]
    rfl
  rw [this]
  rfl

/-- A message to a destination: the router has the destination, the data, the ports and the protocol as the client gave them. -/
theorem C182_message (E : Env) (chk : Bool) (sid nonce options expires : Nat) (key padding payload rest : Bytes) (p : Nat × Nat × Datagram.Protocol) (h1 : sid < 2 ^ 16) (h2 : nonce < 2 ^ 32)
    (h3 : options < 2 ^ 16) (h4 : expires < 2 ^ 48) (h5 : payload.length < 2 ^ 32) (hk : key.length = 32) (hp : padding.length = 352) (hv : E.keyOk (.ed25519 key) = true)
    (hpar : Datagram.parameters payload = some p) :
    parse E chk 36 (be 2 sid ++ (Destination.new E key padding).serialized ++ be 4 payload.length ++ payload ++ be 4 nonce ++ be 2 options ++ be 6 expires ++ rest) =
      .ok (.sendMessageExpires sid (Destination.new E key padding) p payload nonce options expires) := by
  rw [parse_36]
  have hd := fun r => Prim.C26_new_destination_roundtrip E key padding r hk hp hv
  generalize Destination.new E key padding = d at hd ⊢
  have : sendMessageExpires E (be 2 sid ++ d.serialized ++ be 4 payload.length ++ payload ++ be 4 nonce ++ be 2 options ++ be 6 expires ++ rest) =
      some (.sendMessageExpires sid d p payload nonce options expires) := by
    have step : ∀ {α β : Type} {x : Option (α × Bytes)} {a : α} {r : Bytes} {f : α × Bytes → Option β} {y : Option β}, x = some (a, r) → f (a, r) = y → (x >>= f) = y := by
      intro α β x a r f y hx hy
      rw [hx]
      exact hy
    have htake : ∀ r, takeN payload.length (payload ++ r) = some (payload, r) := fun r => takeN_append rfl r
    have b2 : ∀ n r, n < 2 ^ 16 → beU 2 (be 2 n ++ r) = some (n, r) := fun n r h => by rw [beU_be, Nat.mod_eq_of_lt (by omega : n < 256 ^ 2)]
    have b4 : ∀ n r, n < 2 ^ 32 → beU 4 (be 4 n ++ r) = some (n, r) := fun n r h => by rw [beU_be, Nat.mod_eq_of_lt (by omega : n < 256 ^ 4)]
    have b6 : ∀ n r, n < 2 ^ 48 → beU 6 (be 6 n ++ r) = some (n, r) := fun n r h => by rw [beU_be, Nat.mod_eq_of_lt (by omega : n < 256 ^ 6)]
    unfold sendMessageExpires
    simp only [List.append_assoc]
    refine step (b2 sid _ h1) (step (hd _) (step (b4 _ _ h5) (step (htake _) (step (b4 _ _ h2) (step (b2 _ _ h3) (step (b6 _ _ h4) ?_))))))
    rw [hpar]
    rfl
  rw [this]
  rfl

/-- A session is only made for a destination whose key signed a message that begins with the destination, the options and the date. -/
theorem C182_signed (E : Env) (chk : Bool) (input : Bytes) (d : Destination) (date : Nat) (options : Options) (h : parse E chk 1 input = .ok (.createSession d date options)) :
    ∃ (opts sig rest : Bytes) (ms : List Mapping), input = d.serialized ++ opts ++ be 8 date ++ sig ++ rest ∧ sig.length = 64 ∧ options = Options.ofList ms ∧
      Mapping.parseMulti E (opts ++ be 8 date ++ sig ++ rest) = some (ms, be 8 date ++ sig ++ rest) ∧
      E.verify d.key (input.take (input.length - 64)) sig = true ∧ d.serialized ++ opts ++ be 8 date <+: input.take (input.length - 64) := by
  rw [parse_1] at h
  cases hc : createSession E input with
  | none => rw [hc] at h; cases h
  | some m =>
    rw [hc] at h
    have hm : m = .createSession d date options := by
      injection h
    subst hm
    unfold createSession at hc
    unbind hc with ⟨d', r1⟩ e1
    unbind hc with ⟨ms, r2⟩ e2
    unbind hc with ⟨date', r3⟩ e3
    unbind hc with ⟨sig, r4⟩ e4
    unbind hc with u e5
    simp only [Option.pure_def, Option.some.injEq, Message.createSession.injEq] at hc
    obtain ⟨rfl, rfl, rfl⟩ := hc
    obtain ⟨hi, _⟩ := Prim.C26_destination_parse_exact E input r1 d' e1
    obtain ⟨opts, ho⟩ := Prim.Mapping.parseMulti_suffix e2
    obtain ⟨rfl, _⟩ := beU_some e3
    obtain ⟨rfl, hs⟩ := takeN_some e4
    have hin : input = d'.serialized ++ opts ++ be 8 date' ++ sig ++ r4 := by
      rw [hi, ← ho]
      simp
    have hs : sig.length = 64 := hs
    refine ⟨opts, sig, r4, ms, hin, hs, rfl, ?_, Prim.Env.check_some e5, ?_⟩
    · rw [show opts ++ be 8 date' ++ sig ++ r4 = r1 by rw [← ho]; simp, e2]
      simp
    · have hpre : d'.serialized ++ opts ++ be 8 date' <+: input := ⟨sig ++ r4, by rw [hin]; simp⟩
      refine List.prefix_of_prefix_length_le hpre (List.take_prefix _ _) ?_
      have := congrArg List.length hin
      simp only [List.length_append] at this ⊢
      rw [List.length_take]
      omega

/-- The keys of a lease set as a client writes them. -/
def keyBytes (ks : List Bytes) : Bytes := (ks.map fun k => be 2 4 ++ be 2 32 ++ k).flatten

theorem keys_ok (ks : List Bytes) (h : ∀ k ∈ ks, k.length = 32) (rest : Bytes) : keys ks.length (keyBytes ks ++ rest) = some ks := by
  induction ks with
  | nil => rfl
  | cons k ks ih =>
    unfold keyBytes
    simp only [List.length_cons, keys, List.map_cons, List.flatten_cons, List.append_assoc, beU_be, bind_some_pair]
    rw [show 32 % 256 ^ 2 = 32 by decide, takeN_append (h k List.mem_cons_self), bind_some_pair]
    dsimp only
    rw [if_pos (by decide)]
    have := ih (fun x hx => h x (List.mem_cons_of_mem _ hx))
    unfold keyBytes at this
    simp only [List.append_assoc] at this
    rw [this]
    rfl

/-- A lease set and its keys: the router keeps the bytes of the lease set, the hash of its destination and the keys. -/
theorem C182_lease_set (E : Env) (chk : Bool) (sid : Nat) (ls : LeaseSet2) (raw rest : Bytes) (ks : List Bytes) (h1 : sid < 2 ^ 16) (hp : ∀ r, LeaseSet2.parse E (raw ++ r) = some (ls, r))
    (hk : ∀ k ∈ ks, k.length = 32) (hn : ks.length < 256) :
    parse E chk 41 (be 2 sid ++ be 1 3 ++ raw ++ be 1 ks.length ++ keyBytes ks ++ rest) = .ok (.createLeaseSet2 sid ls.header.destination.hash raw ks) := by
  rw [parse_41]
  have : createLeaseSet2 E (be 2 sid ++ be 1 3 ++ raw ++ be 1 ks.length ++ keyBytes ks ++ rest) = some (.createLeaseSet2 sid ls.header.destination.hash raw ks) := by
    unfold createLeaseSet2
    have ht : ((be 2 sid ++ (be 1 3 ++ (raw ++ (be 1 ks.length ++ (keyBytes ks ++ rest))))).take
        ((be 2 sid ++ (be 1 3 ++ (raw ++ (be 1 ks.length ++ (keyBytes ks ++ rest))))).length - (be 1 ks.length ++ (keyBytes ks ++ rest)).length)).drop 3 = raw := by
      rw [show be 2 sid ++ (be 1 3 ++ (raw ++ (be 1 ks.length ++ (keyBytes ks ++ rest)))) = (be 2 sid ++ be 1 3 ++ raw) ++ (be 1 ks.length ++ (keyBytes ks ++ rest)) by simp]
      rw [List.take_left' (by simp only [List.length_append]; omega)]
      exact List.drop_left' (by simp)
    simp only [List.append_assoc, beU_be, bind_some_pair]
    rw [if_pos (by decide), hp]
    simp only [bind_some_pair, beU_be]
    rw [ht, Nat.mod_eq_of_lt (by omega : sid < 256 ^ 2), Nat.mod_eq_of_lt (by omega : ks.length < 256 ^ 1), keys_ok ks hk]
    rfl
  rw [this]
  rfl

theorem keys_length {n : Nat} {i : Bytes} {ks : List Bytes} (h : keys n i = some ks) : ks.length = n ∧ ∀ k ∈ ks, k.length = 32 := by
  induction n generalizing i ks with
  | zero =>
    cases h
    exact ⟨rfl, by simp⟩
  | succ n ih =>
    unfold keys at h
    unbind h with ⟨kind, r1⟩ e1
    unbind h with ⟨len, r2⟩ e2
    unbind h with ⟨key, r3⟩ e3
    split at h
    · rename_i hc
      unbind h with ks' e4
      cases h
      obtain ⟨h1, h2⟩ := ih e4
      refine ⟨by rw [List.length_cons, h1], ?_⟩
      intro k hk
      rcases List.mem_cons.mp hk with rfl | hk
      · rw [(takeN_some e3).2]
        exact hc.2
      · exact h2 k hk
    · cases h

/-- What is kept as a lease set is signed by the key of the destination that it is kept for (or by a key that the destination's key vouches for), byte for byte as the client sent it. -/
theorem C182_lease_set_signed (E : Env) (chk : Bool) (input : Bytes) (sid : Nat) (key raw : Bytes) (ks : List Bytes) (h : parse E chk 41 input = .ok (.createLeaseSet2 sid key raw ks)) :
    ∃ (rest : Bytes) (ls : LeaseSet2), input = be 2 sid ++ be 1 3 ++ raw ++ rest ∧ LeaseSet2.parse E (raw ++ rest) = some (ls, rest) ∧ key = E.sha256 ls.header.destination.serialized ∧
      ls.header.destination.serialized <+: raw ∧ (∀ k ∈ ks, k.length = 32) ∧
      ∃ signed sig, raw = signed ++ sig ∧ ((ls.header.offline = none ∧ E.verify ls.header.destination.key (3 :: signed) sig = true) ∨
       (∃ tkey cert, ls.header.offline = some tkey ∧ cert <:+: signed ∧ Prim.Certified E ls.header.destination.key tkey cert ∧ E.verify tkey (3 :: signed) sig = true)) := by
  rw [parse_41] at h
  cases hc : createLeaseSet2 E input with
  | none => rw [hc] at h; cases h
  | some m =>
    rw [hc] at h
    have hm : m = .createLeaseSet2 sid key raw ks := by
      injection h
    subst hm
    unfold createLeaseSet2 at hc
    unbind hc with ⟨sid', r1⟩ e1
    unbind hc with ⟨kind, r2⟩ e2
    split at hc
    · rename_i hkind
      subst hkind
      unbind hc with ⟨ls, r3⟩ e3
      unbind hc with ⟨n, r4⟩ e4
      unbind hc with ks' e5
      simp only [Option.pure_def, Option.some.injEq, Message.createLeaseSet2.injEq] at hc
      obtain ⟨rfl, rfl, rfl, rfl⟩ := hc
      obtain ⟨signed, sig, hs, hd, ⟨q, hq⟩, hver, _⟩ := Prim.C29_lease_set_signature E r2 r3 ls e3
      obtain ⟨_, _, hhash, _⟩ := Prim.C26_destination_parse_exact E r2 q ls.header.destination hq
      obtain ⟨rfl, _⟩ := beU_some e1
      obtain ⟨rfl, _⟩ := beU_some e2
      have hraw : ((be 2 sid' ++ (be 1 3 ++ r2)).take ((be 2 sid' ++ (be 1 3 ++ r2)).length - r3.length)).drop 3 = signed ++ sig := by
        rw [hs, show be 2 sid' ++ (be 1 3 ++ (signed ++ sig ++ r3)) = (be 2 sid' ++ be 1 3 ++ (signed ++ sig)) ++ r3 by simp]
        rw [List.take_left' (by simp only [List.length_append]; omega)]
        exact List.drop_left' (by simp)
      rw [hraw]
      refine ⟨r3, ls, ?_, ?_, hhash, hd.trans (List.prefix_append _ _), (keys_length e5).2, signed, sig, rfl, hver⟩
      · conv => lhs; rw [hs]
        simp
      · rw [← hs]
        exact e3
    · cases hc

/-- The keys that come with a lease set need not have anything to do with it, and there need not be any. -/
theorem C182_keys_violated (E : Env) (chk : Bool) (sid : Nat) (ls : LeaseSet2) (raw : Bytes) (h1 : sid < 2 ^ 16) (hp : ∀ r, LeaseSet2.parse E (raw ++ r) = some (ls, r)) :
    parse E chk 41 (be 2 sid ++ be 1 3 ++ raw ++ be 1 0) = .ok (.createLeaseSet2 sid ls.header.destination.hash raw []) ∧
    ∀ k : Bytes, k.length = 32 → parse E chk 41 (be 2 sid ++ be 1 3 ++ raw ++ be 1 1 ++ (be 2 4 ++ be 2 32 ++ k)) = .ok (.createLeaseSet2 sid ls.header.destination.hash raw [k]) := by
  constructor
  · have := C182_lease_set E chk sid ls raw [] [] h1 hp (by simp) (by decide)
    simpa [keyBytes] using this
  · intro k hk
    have := C182_lease_set E chk sid ls raw [] [k] h1 hp (by simpa using hk) (by simp)
    simpa [keyBytes] using this

/-- Bytes that follow some messages end the task of the session if assertions are compiled in. -/
theorem C182_trailing_violated (E : Env) (sid : Nat) (rest : Bytes) (h : rest ≠ []) :
    parse E true 3 (be 2 sid ++ rest) = .panic ∧ parse E true 8 rest = .panic := by
  have hne : rest.isEmpty = false := by simp [h]
  constructor
  · rw [parse_3]
    unfold destroySession
    rw [beU_be]
    show (if true && !rest.isEmpty then Msg.panic else _) = Msg.panic
    rw [hne]
    rfl
  · rw [parse_8]
    show (if true && !rest.isEmpty then Msg.panic else _) = Msg.panic
    rw [hne]
    rfl

/-- Without assertions no message ends it. -/
theorem C182_total_partial (E : Env) (ty : UInt8) (input : Bytes) : parse E false ty input ≠ .panic := by
  have he : ∀ o, empty false o ≠ .panic := by
    intro o h
    unfold empty at h
    split at h
    · cases h
    · cases h
  have hp : ∀ o, plain o ≠ .panic := by
    intro o h
    unfold plain at h
    split at h <;> cases h
  unfold parse
  repeat' split
  all_goals first
    | exact he _
    | exact hp _
    | exact fun h => by cases h

/-! ## The hypotheses are met -/

example : cut (mkStatus 5 .created ++ mkSetDate 7 [0x30]) = some ((20, [0, 5, 1]), [0, 0, 0, 10, 33, 0, 0, 0, 0, 0, 0, 0, 7, 1, 0x30]) := by decide +kernel
example := C181_set_date 1234 (List.replicate 5 0x30) [1, 2] (by decide)
example := C181_payload 1 2 [3, 4, 5] [6] (by decide)
example := C181_deaf_violated 1 2 (mkStatus 5 .created) (by decide)
example : ∃ last, hostBody 1 2 (.success [7, 8, 9]) = (hostBody 1 2 (.success [7, 8, 9])).dropLast ++ [last] ∧ cut (mkHostReply 1 2 (.success [7, 8, 9])) = some ((39, [0, 1, 0, 0, 0, 2, 0, 7, 8]), [last]) :=
  ⟨9, by decide, by decide +kernel⟩
example := C181_lease_request_violated 1 [{ router := List.replicate 32 3, tunnelId := 4, expires := 5 }] (by simp) (by decide) (by decide) []

example : (parse Env.sample true 38 (be 2 1 ++ be 4 2 ++ be 4 3 ++ be 1 0 ++ List.replicate 32 9)) = .ok (.hostLookup 1 2 3 (.hash (List.replicate 32 9))) :=
  by simpa using C182_lookup_hash Env.sample true 1 2 3 (List.replicate 32 9) [] (by decide) (by decide) (by decide) (by decide)

example : parse Env.sample true 36 (be 2 1 ++ (Destination.new Env.sample (List.replicate 32 1) (List.replicate 352 2)).serialized ++ be 4 10 ++ [0, 0, 0, 0, 1, 2, 3, 4, 0, 6] ++ be 4 5 ++ be 2 6 ++
    be 6 7 ++ []) = .ok (.sendMessageExpires 1 (Destination.new Env.sample (List.replicate 32 1) (List.replicate 352 2)) (258, 772, .streaming) [0, 0, 0, 0, 1, 2, 3, 4, 0, 6] 5 6 7) :=
  C182_message Env.sample true 1 5 6 7 (List.replicate 32 1) (List.replicate 352 2) [0, 0, 0, 0, 1, 2, 3, 4, 0, 6] [] (258, 772, .streaming) (by decide) (by decide) (by decide) (by decide) (by decide)
    (by decide) (by decide +kernel) rfl (by decide +kernel)

/-- A way to sign that `Env.sample` accepts. -/
def toySign (m : Bytes) : Bytes := UInt8.ofNat m.length :: List.replicate 63 0

example := C182_keys_violated Env.sample true 1 _ (LeaseSet2.sample.serialize toySign) (by decide) (fun r => Prim.C28_built_lease_set_roundtrip_partial Env.sample toySign LeaseSet2.sample r
  (List.replicate 32 1) (List.replicate 352 2) (by decide) (by decide +kernel) rfl rfl rfl (by decide) (by decide) (by decide) (by decide) (by decide) (by decide) (by decide) (by decide)
  (fun m => by simp [toySign]) (fun m => by simp [toySign, Env.sample, Prim.VKey.sigLen]))

/-- A request for a session. -/
def toyCreate : Bytes :=
  let m := (Destination.new Env.sample (List.replicate 32 1) (List.replicate 352 2)).serialized ++ be 2 0 ++ be 8 1000
  m ++ toySign m

example : parse Env.sample true 1 toyCreate = .ok (.createSession (Destination.new Env.sample (List.replicate 32 1) (List.replicate 352 2)) 1000 []) := by decide +kernel

end Emissary.I2cpMessage
