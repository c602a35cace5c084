import Verif.Props.StreamTask
import Verif.Props.SamParser
import Verif.Model.StreamFirst
import Verif.Model.Primitives
/-!
# C285: a client is told who its peer is
-/
namespace Emissary.StreamTask
open Emissary Emissary.Stream Emissary.Prim

/-! ## Specification -/

/-- Base 64: what is written is read back, and there is no dot in it. -/
structure Lawful64 {D : Type} (e : SamParser.Env D) (b64 : Bytes → List Char) : Prop where
  back : ∀ b, e.base64 (b64 b) = some b
  dot : ∀ b, '.' ∉ b64 b

/-- The line with which SAM tells a client whom the stream is from (SAM v3, `STREAM ACCEPT` with `SILENT=false`): the destination, of which one can be connected to. -/
def peerLine (b64 : Bytes → List Char) (d : Destination) : Bytes := ascii (b64 d.serialized) ++ [10]

/-- The text by which a client can name what was in the line, in a `STREAM CONNECT`. -/
def Connects {D : Type} (e : SamParser.Env D) (s : List Char) (h : SamParser.Host D) : Prop :=
  ∀ (os : List SamParser.Opt), (∀ o ∈ os, o.Ok) → ∀ id, SamParser.last os "ID" = some id → SamParser.last os "DESTINATION" = some s →
    ∃ opts, SamParser.parse e (SamParser.line "STREAM" "CONNECT" os) = .ok (.connect id h opts)

/-- What the socket's kind lets the client read before the data. -/
def before (b64 : Bytes → List Char) (remote : Bytes) : Sock → Bytes
  | .accept false | .forwarded false => ascii (b64 remote) ++ [10]
  | .connect false => ascii "STREAM STATUS RESULT=OK\n".toList
  | _ => []

/-- What the peer has sent before there was a socket: with its `SYN`, in the packets that waited for a listener, or with its answer to a `SYN`. -/
def early : Kind → Bytes
  | .inbound syn => syn
  | .pending _ packets => packets.flatten
  | .outbound answer => answer

/-- The number of the last packet among these. `SYN` packets have the number 0. -/
def lastEarly : Kind → Nat
  | .inbound _ => 0
  | .pending last _ => last
  | .outbound _ => 0

/-! ## What is given first -/

theorem data_early (k : Kind) : k.data = early k := by cases k <;> rfl

theorem highest_last (k : Kind) : k.highest = lastEarly k := by cases k <;> rfl

theorem firstMessage_getD (b64 : Bytes → List Char) (remote : Bytes) (s : Sock) (data : Bytes) :
    (firstMessage (greeting b64 remote s) data).getD [] = before b64 remote s ++ data := by
  rcases s with s | s | s <;> cases s <;> cases data <;> simp [greeting, firstMessage, before]

/-- Whatever happens, the client reads the line, if it asked for one, then what the peer sent before there was a socket, then what the peer sent later, in order and
without a gap; for as long as its socket is open nothing of this is left out. -/
theorem C285_given_first (b64 : Bytes → List Char) (remote : Bytes) (s : Sock) (k : Kind) (payloads : List Bytes) (ops : List Op) (hp : Honest (lastEarly k) payloads ops) (t : Task)
    (ht : ((Task.start b64 remote s k).run ops).1 = t) :
    t.out <+: before b64 remote s ++ early k ++ payloads.flatten ∧
      (t.writeClosed = false → t.inb.missing = [] →
        t.out ++ t.rx.remaining ++ t.inb.ready.flatten = before b64 remote s ++ early k ++ (payloads.take (t.inb.cur - lastEarly k)).flatten) := by
  rw [← data_early]
  rw [← highest_last] at hp ⊢
  obtain ⟨h1, h2⟩ := C283_delivered_partial k.highest _ payloads ops hp t ht
  rw [firstMessage_getD] at h1 h2
  refine ⟨h1, fun hc hm => ?_⟩
  obtain ⟨m, h3, h4, _⟩ := h2 hc
  have := h4 hm
  rw [h3, show t.inb.cur - k.highest = m by omega]

theorem ascii_inj (x : List Char) : ∀ (y : List Char), (∀ c ∈ x, c.toNat < 256) → (∀ c ∈ y, c.toNat < 256) → ascii x = ascii y → x = y := by
  induction x with
  | nil => intro y _ _ h; cases y with
    | nil => rfl
    | cons c y => cases h
  | cons c x ih =>
    intro y hx hy h
    cases y with
    | nil => cases h
    | cons c' y =>
      simp only [ascii, List.map_cons, List.cons.injEq] at h
      have h1 := congrArg UInt8.toNat h.1
      have h2 := hx c (by simp)
      have h3 := hy c' (by simp)
      simp only [Nat.toUInt8, UInt8.toNat_ofNat'] at h1
      have hcc : c = c' := Char.toNat_inj.mp (by omega)
      rw [hcc, ih y (fun d hd => hx d (by simp [hd])) (fun d hd => hy d (by simp [hd])) h.2]

/-- The line tells peers apart: it is different for destinations with different hashes. -/
theorem C285_told_apart_partial {D : Type} (e : SamParser.Env D) (b64 : Bytes → List Char) (hl : Lawful64 e b64) (hasc : ∀ b, ∀ c ∈ b64 b, c.toNat < 256) (a b : Bytes)
    (h : before b64 a (.accept false) = before b64 b (.accept false)) : a = b := by
  simp only [before, List.append_cancel_right_eq] at h
  have := ascii_inj _ _ (hasc a) (hasc b) h
  have h1 := hl.back a
  rw [this, hl.back b] at h1
  exact (Option.some.inj h1).symm

/-! ## The line is of no use for an answer -/

theorem find_none (t s : List Char) (c : Char) (u : List Char) (ht : t = c :: u) (hc : c ∉ s) : SamParser.find t s = none := by
  subst ht
  induction s with
  | nil => simp [SamParser.find]
  | cons x s ih =>
    have hx : (c == x) = false := by
      simp only [beq_eq_false_iff_ne, ne_eq]
      intro h; exact hc (by simp [h])
    simp only [SamParser.find, List.isPrefixOf, hx, Bool.false_and, Bool.false_eq_true, if_false]
    rw [ih (fun h => hc (by simp [h]))]
    rfl

theorem host_plain {D : Type} (e : SamParser.Env D) (s : List Char) (hd : '.' ∉ s) :
    SamParser.host e s = match e.base64 s with
      | none => .err
      | some b => match e.dest b with
        | none => .err
        | some (d, _) => .ok (.dest d) := by
  unfold SamParser.host
  rw [find_none ".b32.i2p".toList s '.' "b32.i2p".toList (by decide) hd]
  simp only
  have : ".i2p".toList.isSuffixOf s = false := by
    cases h : ".i2p".toList.isSuffixOf s with
    | false => rfl
    | true => exact absurd ((List.isSuffixOf_iff_suffix.mp h).subset (by decide)) hd
  rw [this]
  simp only [Bool.false_eq_true, if_false]
  cases e.base64 s with
  | none => rfl
  | some b => cases h : e.dest b <;> simp only [h]

/-- The line SAM asks for would do: a client that sends it back connects to the destination. -/
theorem C285_destination_connects (E : Prim.Env) (e : SamParser.Env Destination) (b64 : Bytes → List Char) (hl : Lawful64 e b64) (he : e.dest = Destination.parse E)
    (d : Destination) (r : Bytes) (hd : Destination.parse E d.serialized = some (d, r)) : Connects e (b64 d.serialized) (.dest d) := by
  intro os ho id hid hdst
  obtain ⟨opts, h, _⟩ := SamParser.C165_connect e os ho id (b64 d.serialized) (.dest d) hid hdst (by
    rw [host_plain e _ (hl.dot _), hl.back]
    simp only [he, hd])
  exact ⟨opts, h⟩

/-- The code gives the hash instead of the destination: for every destination, the line a client gets who accepts a stream is not the one that SAM specifies, and a
`STREAM CONNECT` to what is in it is refused. -/
theorem C285_hash_instead_violated (E : Prim.Env) (e : SamParser.Env Destination) (b64 : Bytes → List Char) (hl : Lawful64 e b64) (hasc : ∀ b, ∀ c ∈ b64 b, c.toNat < 256) (he : e.dest = Destination.parse E)
    (d : Destination) (hh : d.hash.length = 32) (hd : ∃ r, Destination.parse E d.serialized = some (d, r)) (s : Sock) (hs : s = .accept false ∨ s = .forwarded false) (k : Kind) :
    (∃ rest, (Task.start b64 d.hash s k).writing = some (0, ascii (b64 d.hash) ++ [10] ++ rest)) ∧ greeting b64 d.hash s ≠ some (peerLine b64 d) ∧
    (∀ os : List SamParser.Opt, (∀ o ∈ os, o.Ok) → SamParser.last os "DESTINATION" = some (b64 d.hash) → SamParser.parse e (SamParser.line "STREAM" "CONNECT" os) = .err) := by
  refine ⟨?_, ?_, ?_⟩
  · have h : firstMessage (some (ascii (b64 d.hash) ++ [10])) k.data = some (ascii (b64 d.hash) ++ [10] ++ k.data) := by
      cases hk : k.data <;> simp [firstMessage]
    rcases hs with rfl | rfl <;> exact ⟨k.data, by simp only [Task.start, Task.new, greeting, h, Option.map_some]⟩
  · intro heq
    have heq : ascii (b64 d.hash) ++ [10] = peerLine b64 d := by rcases hs with rfl | rfl <;> exact Option.some.inj heq
    simp only [peerLine, List.append_cancel_right_eq] at heq
    have heq := ascii_inj _ _ (hasc _) (hasc _) heq
    have h1 := hl.back d.hash
    rw [heq, hl.back] at h1
    obtain ⟨r, hr⟩ := hd
    rw [Option.some.inj h1] at hr
    simp [Destination.parse, hh] at hr
  · intro os ho hdst
    rw [SamParser.parse_plain e _ _ (by decide) (by decide) os ho]
    unfold SamParser.command
    rw [if_neg (by decide), if_neg (by decide), if_pos ⟨rfl, rfl⟩]
    unfold SamParser.connect
    rw [SamParser.get_last, SamParser.get_last, hdst]
    have hh : SamParser.host e (b64 d.hash) = .err := by
      rw [host_plain e _ (hl.dot _), hl.back]
      simp [he, Destination.parse, hh]
    cases SamParser.last os "ID" with
    | none => rfl
    | some id => simp only; rw [hh]

/-! ## The hypotheses can be met -/

/-- Every byte as two letters: enough of an encoding to meet the hypotheses. -/
def hex (b : Bytes) : List Char := b.flatMap fun x => [Char.ofNat (97 + x.toNat / 16), Char.ofNat (97 + x.toNat % 16)]

/-- Back again. -/
def unhex : List Char → Option Bytes
  | [] => some []
  | a :: b :: r => (unhex r).map (((a.toNat - 97) * 16 + (b.toNat - 97)).toUInt8 :: ·)
  | _ => none

theorem unhex_hex (b : Bytes) : unhex (hex b) = some b := by
  induction b with
  | nil => rfl
  | cons x b ih =>
    simp only [hex] at ih
    simp only [hex, List.flatMap_cons, List.cons_append, List.nil_append, unhex, ih, Option.map_some, Option.some.injEq, List.cons.injEq, and_true]
    revert x
    have : ∀ n : Fin 256, (((Char.ofNat (97 + n.val / 16)).toNat - 97) * 16 + ((Char.ofNat (97 + n.val % 16)).toNat - 97)) = n.val := by decide +kernel
    intro x
    have := this ⟨x.toNat, x.toNat_lt⟩
    simp only at this
    rw [this]
    simp [Nat.toUInt8]

theorem hex_chars (b : Bytes) : ∀ c ∈ hex b, c ≠ '.' ∧ c.toNat < 256 := by
  intro c hc
  simp only [hex, List.mem_flatMap, List.mem_cons, List.not_mem_nil, or_false] at hc
  obtain ⟨x, -, hx⟩ := hc
  have h1 : ∀ n : Fin 256, (Char.ofNat (97 + n.val / 16) ≠ '.' ∧ (Char.ofNat (97 + n.val / 16)).toNat < 256) ∧ Char.ofNat (97 + n.val % 16) ≠ '.' ∧ (Char.ofNat (97 + n.val % 16)).toNat < 256 := by decide +kernel
  have := h1 ⟨x.toNat, x.toNat_lt⟩
  rcases hx with rfl | rfl
  · exact this.1
  · exact this.2

/-- Toy cryptography. -/
def toyEnv : Prim.Env where
  sha256 := fun b => List.replicate 32 (b.getD 0 0)
  utf8 := fun _ => true
  keyOk := fun _ => true
  verify := fun _ _ _ => true
  parseIp := fun _ => none

/-- A destination that can be read. -/
def toyDest : Destination := Destination.new toyEnv (List.replicate 32 7) (List.replicate 352 9)

example : Lawful64 (⟨unhex, fun _ => none, Destination.parse toyEnv⟩ : SamParser.Env Destination) hex ∧ toyDest.hash.length = 32 ∧
    (∃ r, Destination.parse toyEnv toyDest.serialized = some (toyDest, r)) ∧ ∀ b, ∀ c ∈ hex b, c.toNat < 256 :=
  ⟨⟨unhex_hex, fun b hb => (hex_chars b _ hb).1 rfl⟩, by decide, ⟨[], by decide +kernel⟩, fun b c hc => (hex_chars b c hc).2⟩

-- A stream that waited with two packets for its listener.
example : Honest 2 [[5, 6]] [.packet (some (dataPkt 3 0 [5, 6])) true] ∧
    ((Task.start hex [0x12] (.accept false) (.pending 2 [[1, 2], [3]])).run [.written 6 true, .pollEmpty, .packet (some (dataPkt 3 0 [5, 6])) true, .written 9 true]).1.out =
      [98, 99, 10, 1, 2, 3, 5, 6] := by
  refine ⟨?_, by decide +kernel⟩
  intro p room hp
  simp only [List.mem_singleton, Op.packet.injEq, Option.some.injEq] at hp
  obtain ⟨rfl, _⟩ := hp
  intro _ _; decide

end Emissary.StreamTask
