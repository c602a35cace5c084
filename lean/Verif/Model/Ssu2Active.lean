import Verif.Model.I2np
import Verif.Model.OMap
import Verif.Model.StreamTx
/-!
# SSU2 sessions: acknowledgements, fragments, duplicates

Models `emissary-core/src/transport/ssu2/session/active/{ack,fragment,duplicate}.rs`, the message path of
`transport/ssu2/session/active/mod.rs` (lines 178-427) and `bloom.rs`.

Simplifications: packets are already decrypted and parsed into blocks; the clock is an oracle (which messages have
expired, which partial messages are stale); the Bloom filter's hash function (crate `ethbloom`) is a parameter giving the bits of
an element; channels always accept.
-/
namespace Emissary.Ssu2
open Emissary Emissary.I2np Emissary.Stream

/-! ## Acknowledgements (ack.rs) -/

/-- `RemoteAckManager` (ack.rs 77-83). The set of `Missing(n)`/`Received(n)`, ordered by `n` alone, is a map from
`n` to "received". -/
structure AckMgr where
  highest : Nat := 0
  packets : OMap Bool := []
deriving Repr, DecidableEq

/-- `BTreeSet::insert`: an equal element (same packet number) is kept. Standard or external library, not in /repo. -/
def put (m : OMap Bool) (n : Nat) (v : Bool) : OMap Bool := if m.has n then m else m.ins n v

/-- Branch for a packet beyond the next expected one (ack.rs 108-117). -/
def AckMgr.skipTo (a : AckMgr) (n : Nat) : AckMgr :=
  if a.highest + 1 < n then
    { highest := n
      packets := put ((List.range' (a.highest + 1) (n - (a.highest + 1))).foldl (fun m k => put m k false) a.packets)
        a.highest true }
  else a

/-- `register_pkt` (ack.rs 97-124); `highest_seen + 1` overflows at `u32::MAX`, which is left out. -/
def AckMgr.register (a : AckMgr) (n : Nat) : AckMgr :=
  if a.highest + 1 = n then
    { highest := n, packets := put (put a.packets a.highest true) n true }
  else
    let a := a.skipTo n
    if a.highest + 1 > n then { a with packets := put (a.packets.del n) n true } else a

/-- Number of received packets directly below the highest (ack.rs 134-142); the list starts at the second highest entry. -/
def contiguous (h : Nat) : Nat → List (Nat × Bool) → Nat
  | _, [] => 0
  | i, (v, r) :: t => if r && h == v + i + 1 then contiguous h (i + 1) t + 1 else 0

/-- `iter.any(…Missing…)` (ack.rs 149): the entries after the first missing one. -/
def afterMissing : List (Nat × Bool) → Option (List (Nat × Bool))
  | [] => none
  | (_, false) :: t => some t
  | (_, true) :: t => afterMissing t

/-- `*ranges.last_mut() += 1`. -/
def bumpLast : List Nat → List Nat
  | [] => []
  | [k] => [k + 1]
  | k :: t => k :: bumpLast t

/-- One step of the grouping fold (ack.rs 165-184). -/
def rangeStep (s : List Nat × Bool) (e : Nat × Bool) : List Nat × Bool :=
  match s.2, e.2 with
  | true, false => (bumpLast s.1, true)
  | true, true => (s.1 ++ [1], false)
  | false, false => (s.1 ++ [1], true)
  | false, true => (bumpLast s.1, false)

/-- Padding to an even number of ranges, `chunks(2)` and the clamping to a byte (ack.rs 186-193). -/
def pairs : List Nat → List (Nat × Nat)
  | [] => []
  | [a] => [(min a 255, 0)]
  | a :: b :: t => (min a 255, min b 255) :: pairs t

/-- `ack_info` (ack.rs 132-196). -/
def AckMgr.ackInfo (a : AckMgr) : Nat × Nat × Option (List (Nat × Nat)) :=
  let desc := a.packets.reverse
  let numAcks := min (contiguous a.highest 0 (desc.drop 1)) 255
  match afterMissing desc with
  | none => (a.highest, numAcks, none)
  | some rest => (a.highest, numAcks, some (pairs (rest.foldl rangeStep ([1], true)).1))

/-! ## Fragments (fragment.rs) -/

/-- `Fragment` (fragment.rs 48-67) without the capacity hint and the creation time. -/
structure Fragment where
  frags : OMap Bytes := []
  num : Option Nat := none
  info : Option (MessageType × Nat × Nat) := none

/-- `is_ready` (fragment.rs 83-87). -/
def Fragment.isReady (f : Fragment) : Bool := f.num.isSome && f.info.isSome && (f.num == some f.frags.length)

/-- `construct` (fragment.rs 90-106). -/
def Fragment.construct (f : Fragment) : Option Message :=
  f.info.map (fun i => { type := i.1, id := i.2.1, expiration := fromSecs i.2.2, payload := (f.frags.map (·.2)).flatten })

/-- `FragmentHandler` (fragment.rs 110-116). -/
abbrev Handler := Nat → Option Fragment

/-- Standard or external library, not in /repo. -/
def Handler.upd (h : Handler) (mid : Nat) (v : Option Fragment) : Handler := fun k => if k = mid then v else h k

/-- The common end of `first_fragment` and `follow_on_fragment` (fragment.rs 143-146, 169-172). -/
def Handler.settle (h : Handler) (mid : Nat) (f : Fragment) : Handler × Option Message :=
  if f.isReady then (h.upd mid none, f.construct) else (h.upd mid (some f), none)

/-- `first_fragment` (fragment.rs 130-147). -/
def Handler.first (h : Handler) (ty : MessageType) (mid exp : Nat) (p : Bytes) : Handler × Option Message :=
  let f := (h mid).getD {}
  h.settle mid { f with frags := f.frags.ins 0 p, info := some (ty, mid, exp) }

/-- `follow_on_fragment` (fragment.rs 152-173). -/
def Handler.followOn (h : Handler) (mid seq : Nat) (last : Bool) (p : Bytes) : Handler × Option Message :=
  let f := (h mid).getD {}
  h.settle mid { f with frags := f.frags.ins seq p, num := if last then some (seq + 1) else f.num }

/-- Garbage collection (fragment.rs 179-197) of the messages that are stale. -/
def Handler.collect (h : Handler) (stale : List Nat) : Handler := fun k => if k ∈ stale then none else h k

/-! ## Duplicate filters (duplicate.rs, bloom.rs) -/

/-- `DuplicateFilter` (duplicate.rs 40-52). -/
structure Dup where
  current : List Nat := []
  previous : List Nat := []

/-- `insert` (duplicate.rs 68-75). -/
def Dup.insert (d : Dup) (id : Nat) : Dup × Bool :=
  if d.current.contains id || d.previous.contains id then (d, false)
  else ({ d with current := id :: d.current }, true)

/-- `decay` (duplicate.rs 78-80). -/
def Dup.decay (d : Dup) : Dup := { current := [], previous := d.current }

/-- `ethbloom::Bloom`: a set of bits. Standard or external library, not in /repo. -/
abbrev Bits := Nat → Bool

/-- `Bloom::contains_input`: all bits of the element are set. Standard or external library, not in /repo. -/
def Bits.contains (b : Bits) (bits : List Nat) : Bool := bits.all b

/-- `Bloom::accrue`. Standard or external library, not in /repo. -/
def Bits.accrue (b : Bits) (bits : List Nat) : Bits := fun i => b i || bits.contains i

/-- `BloomFilter` (bloom.rs 27-33). -/
structure Bloom where
  current : Bits := fun _ => false
  previous : Bits := fun _ => false

/-- `BloomFilter::insert` (bloom.rs 39-48); `hash` gives the bits of an element. -/
def Bloom.insert (hash : Bytes → List Nat) (b : Bloom) (x : Bytes) : Bloom × Bool :=
  if b.current.contains (hash x) || b.previous.contains (hash x) then (b, false)
  else ({ b with current := b.current.accrue (hash x) }, true)

/-- `BloomFilter::decay` (bloom.rs 51-53). -/
def Bloom.decay (b : Bloom) : Bloom := { current := fun _ => false, previous := b.current }

/-! ## Sending and receiving messages (active/mod.rs) -/

/-- The blocks that carry I2NP messages (message.rs 170-260). -/
inductive MBlock where
  | i2np (m : Message)
  | first (ty : MessageType) (mid exp : Nat) (p : Bytes)
  | followOn (last : Bool) (mid num : Nat) (p : Bytes)
deriving Repr, DecidableEq

/-- The follow-on fragments of `send_message` (mod.rs 400-413); `n` is the total number of fragments, `i` the position. -/
def followOns (mid n : Nat) : Nat → List Bytes → List MBlock
  | _, [] => []
  | i, p :: ps => .followOn (i + 2 == n) mid (i + 1) p :: followOns mid n (i + 1) ps

/-- `send_message` (mod.rs 339-427): one block per packet. The serialized message is `payload + 11` bytes long
(`Message::serializedLenShort`). `fragments.pop_front().expect(…)` panics for an empty list, which cannot happen for a message
this long. Fragment numbers are bytes; `i as u8 + 1u8` would overflow at 256 fragments (more than 65,535 bytes). -/
def sendMessage (m : Message) : List MBlock :=
  if m.serializedLenShort ≤ 1200 then [.i2np m]
  else
    match chunksOf 1200 m.payload.length m.payload with
    | [] => []
    | p :: ps => .first m.type m.id (asSecs m.expiration) p :: followOns m.id (ps.length + 1) 0 ps

/-- What a block does to the fragment handler, and the message that is now complete (mod.rs 274-311). -/
def Handler.block (h : Handler) : MBlock → Handler × Option Message
  | .i2np m => (h, some m)
  | .first ty mid exp p => h.first ty mid exp p
  | .followOn last mid num p => h.followOn mid num last p

/-- The receiving side of a session; `out` are the messages handed on. transport/ssu2/session/active/mod.rs 178-311. -/
structure Rx where
  frags : Handler := fun _ => none
  dup : Dup := {}
  out : List Message := []

/-- `handle_message` (mod.rs 192-226); `expired` is the clock. -/
def Rx.message (expired : Message → Bool) (s : Rx) (m : Message) : Rx :=
  if expired m then s
  else
    let r := s.dup.insert m.id
    if r.2 then { s with dup := r.1, out := s.out ++ [m] } else { s with dup := r.1 }

/-- Handling of one block (mod.rs 274-311). -/
def Rx.block (expired : Message → Bool) (s : Rx) (b : MBlock) : Rx :=
  match (s.frags.block b).2 with
  | some m => Rx.message expired { s with frags := (s.frags.block b).1 } m
  | none => { s with frags := (s.frags.block b).1 }

/-- What happens to the receiving side: a block arrives, the duplicate filter decays, stale partial messages are collected.
Not in the code: the events that the theorems quantify over. -/
inductive RxOp where
  | block (b : MBlock)
  | decay
  | collect (stale : List Nat)

/-- Not in the code: one event, handled by the definitions above. -/
def Rx.step (expired : Message → Bool) (s : Rx) : RxOp → Rx
  | .block b => s.block expired b
  | .decay => { s with dup := s.dup.decay }
  | .collect stale => { s with frags := s.frags.collect stale }

/-- Not in the code: a fold of the steps. -/
def Rx.run (expired : Message → Bool) (s : Rx) (ops : List RxOp) : Rx := ops.foldl (Rx.step expired) s

/-- `next_pkt_num` (mod.rs 181-186): `pkt_num += 1` overflows after `u32::MAX` (a panic in builds with overflow checks; `none`). -/
def nextPktNum (n : Nat) : Option (Nat × Nat) := if n + 1 < 2 ^ 32 then some (n, n + 1) else none

end Emissary.Ssu2
