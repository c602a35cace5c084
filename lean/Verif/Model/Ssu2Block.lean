import Verif.Model.I2np
/-!
# SSU2 message blocks (transport/ssu2/message.rs 54-881)

`Res` separates a parse error from a panic. `chk` says whether the program was built with debug assertions and overflow checks
(the `dev`, `test` and `testnet` profiles of the workspace; plain `release` has neither).
-/
namespace Emissary.Ssu2
open Emissary Emissary.I2np

/-- `Ok(a)`, `Err(_)` (the error value is collapsed) or a panic. Not in the code: a helper of the model. -/
inductive Res (α : Type) where
  | ok (a : α)
  | err
  | panic
deriving Repr, DecidableEq

/-- Not in the code: a helper of the model. -/
def Res.bind {α β : Type} : Res α → (α → Res β) → Res β
  | .ok a, f => f a
  | .err, _ => .err
  | .panic, _ => .panic

/-- Not in the code: a helper of the model. -/
instance : Monad Res where
  pure := Res.ok
  bind := Res.bind

/-- A nom parser that cannot panic. Not in the code: a helper of the model. -/
def Res.of {α : Type} : Option α → Res α
  | some a => .ok a
  | none => .err

/-- `SocketAddr`: octets of the address and the port. Standard or external library, not in /repo. -/
inductive SockAddr where
  | v4 (ip : Bytes) (port : Nat)
  | v6 (ip : Bytes) (port : Nat)
deriving Repr, DecidableEq

/-- `Block` (message.rs 170-339). A router info is represented by its serialized form. Blocks with no fields that are never
constructed are left out; they are parsed as `unsupported`. -/
inductive Block where
  | dateTime (timestamp : Nat)
  | options (tMin tMax rMin rMax tDmy rDmy tDelay rDelay : Nat)
  | routerInfo (info : Bytes)
  | i2np (message : Message)
  | first (ty : MessageType) (mid exp : Nat) (fragment : Bytes)
  | followOn (last : Bool) (mid num : Nat) (fragment : Bytes)
  | termination (validPkts reason : Nat)
  | ack (through num : Nat) (ranges : List (Nat × Nat))
  | address (a : SockAddr)
  | newToken (expires token : Nat)
  | pathChallenge (data : Bytes)
  | pathResponse (data : Bytes)
  | firstPacketNumber (n : Nat)
  | congestion (flag : Nat)
  | padding (bytes : Bytes)
  | unsupported
deriving Repr, DecidableEq

/-- `parse_date_time` (435-440): the size field is read and ignored. -/
def parseDateTime (i : Bytes) : Res (Block × Bytes) := do
  let (_, r) ← Res.of (beU 2 i)
  let (t, r) ← Res.of (beU 4 r)
  return (.dateTime t, r)

/-- `take(size - min)` if `size > min` (454-459, 529-534). -/
def skipExtra (size min : Nat) (i : Bytes) : Res (Unit × Bytes) :=
  if size > min then do
    let (_, r) ← Res.of (takeN (size - min) i)
    return ((), r)
  else .ok ((), i)

/-- `parse_options` (443-474), `OPTIONS_MIN_SIZE` = 12 (55). -/
def parseOptions (i : Bytes) : Res (Block × Bytes) := do
  let (size, r) ← Res.of (beU 2 i)
  let (a, r) ← Res.of (beU 1 r)
  let (b, r) ← Res.of (beU 1 r)
  let (c, r) ← Res.of (beU 1 r)
  let (d, r) ← Res.of (beU 1 r)
  let (e, r) ← Res.of (beU 2 r)
  let (f, r) ← Res.of (beU 2 r)
  let (g, r) ← Res.of (beU 2 r)
  let (h, r) ← Res.of (beU 2 r)
  let (_, r) ← skipExtra size 12 r
  return (.options a b c d e f g h, r)

/-- `size - 2` on `u16`: overflow panics with checks and wraps without. -/
def sub2 (chk : Bool) (size : Nat) : Res Nat :=
  if size < 2 then (if chk then .panic else .ok (size + 65534)) else .ok (size - 2)

/-- `parse_router_info` (477-514). Only an error for a compressed router info (flag bit 1); the flood bit and the fragment
byte are ignored. `valid` is whether `RouterInfo::parse` succeeds. -/
def parseRouterInfo (chk : Bool) (valid : Bytes → Bool) (i : Bytes) : Res (Block × Bytes) := do
  let (size, r) ← Res.of (beU 2 i)
  if size = 0 then .err
  else do
    let (flag, r) ← Res.of (beU 1 r)
    let (_, r) ← Res.of (beU 1 r)
    let n ← sub2 chk size
    let (info, r) ← Res.of (takeN n r)
    if flag / 2 % 2 = 1 then .err
    else if valid info then .ok (.routerInfo info, r) else .err

/-- `parse_i2np` (517-521). -/
def parseI2np (i : Bytes) : Res (Block × Bytes) := do
  let (m, r) ← Res.of (Message.parseShort i)
  return (.i2np m, r)

/-- `parse_termination` (524-543), `TERMINATION_MIN_SIZE` = 9 (58). -/
def parseTermination (i : Bytes) : Res (Block × Bytes) := do
  let (size, r) ← Res.of (beU 2 i)
  let (v, r) ← Res.of (beU 8 r)
  let (c, r) ← Res.of (beU 1 r)
  let (_, r) ← skipExtra size 9 r
  return (.termination v c, r)

/-- `parse_padding` (546-556), `parse_path_challenge` (685-695), `parse_path_response` (698-708): `size` bytes as they are. -/
def parseData (mk : Bytes → Block) (i : Bytes) : Res (Block × Bytes) := do
  let (size, r) ← Res.of (beU 2 i)
  let (p, r) ← Res.of (takeN size r)
  return (mk p, r)

/-- `parse_first_fragment` (559-600). -/
def parseFirst (i : Bytes) : Res (Block × Bytes) := do
  let (size, r) ← Res.of (beU 2 i)
  let (ty, r) ← Res.of (beU 1 r)
  let (mid, r) ← Res.of (beU 4 r)
  let (exp, r) ← Res.of (beU 4 r)
  let ty ← Res.of (MessageType.ofCode ty)
  if size - 9 = 0 then .err
  else do
    let (p, r) ← Res.of (takeN (size - 9) r)
    return (.first ty mid exp p, r)

/-- `parse_follow_on_fragment` (603-635). -/
def parseFollowOn (i : Bytes) : Res (Block × Bytes) := do
  let (size, r) ← Res.of (beU 2 i)
  let (frag, r) ← Res.of (beU 1 r)
  let (mid, r) ← Res.of (beU 4 r)
  if size - 5 = 0 then .err
  else do
    let (p, r) ← Res.of (takeN (size - 5) r)
    return (.followOn (frag % 2 = 1) mid (frag / 2) p, r)

/-- `chunks(2).map(|c| (c[0], c[1]))` (650), for an even number of bytes. -/
def pairsOf : Bytes → List (Nat × Nat)
  | a :: b :: rest => (a.toNat, b.toNat) :: pairsOf rest
  | _ => []

/-- `parse_ack` (638-673): an odd number of range bytes fails a debug assertion; without assertions the ranges are taken to be
empty and their bytes are left in the input. -/
def parseAck (chk : Bool) (i : Bytes) : Res (Block × Bytes) := do
  let (size, r) ← Res.of (beU 2 i)
  let (thr, r) ← Res.of (beU 4 r)
  let (n, r) ← Res.of (beU 1 r)
  if size - 5 = 0 then .ok (.ack thr n [], r)
  else if (size - 5) % 2 = 0 then do
    let (p, r) ← Res.of (takeN (size - 5) r)
    return (.ack thr n (pairsOf p), r)
  else if chk then .panic else .ok (.ack thr n [], r)

/-- `parse_new_token` (676-682). -/
def parseNewToken (i : Bytes) : Res (Block × Bytes) := do
  let (_, r) ← Res.of (beU 2 i)
  let (e, r) ← Res.of (beU 4 r)
  let (t, r) ← Res.of (beU 8 r)
  return (.newToken e t, r)

/-- `parse_first_packet_number` (711-716). -/
def parseFirstPacketNumber (i : Bytes) : Res (Block × Bytes) := do
  let (_, r) ← Res.of (beU 2 i)
  let (n, r) ← Res.of (beU 4 r)
  return (.firstPacketNumber n, r)

/-- `parse_congestion` (719-724). -/
def parseCongestion (i : Bytes) : Res (Block × Bytes) := do
  let (_, r) ← Res.of (beU 2 i)
  let (f, r) ← Res.of (beU 1 r)
  return (.congestion f, r)

/-- Dispatch on the block type (736-771, codes 139-165). -/
def parseBody (chk : Bool) (valid : Bytes → Bool) (ty : Nat) (r : Bytes) : Res (Block × Bytes) :=
  match ty with
  | 0 => parseDateTime r
  | 1 => parseOptions r
  | 2 => parseRouterInfo chk valid r
  | 3 => parseI2np r
  | 4 => parseFirst r
  | 5 => parseFollowOn r
  | 6 => parseTermination r
  | 7 | 8 | 9 | 10 | 11 | 13 | 15 | 16 => parseData (fun _ => .unsupported) r
  | 12 => parseAck chk r
  | 17 => parseNewToken r
  | 18 => parseData .pathChallenge r
  | 19 => parseData .pathResponse r
  | 20 => parseFirstPacketNumber r
  | 21 => parseCongestion r
  | 254 => parseData .padding r
  | _ => .err

/-- `parse_inner` (736-771). -/
def parseBlock (chk : Bool) (valid : Bytes → Bool) (i : Bytes) : Res (Block × Bytes) := do
  let (ty, r) ← Res.of (beU 1 i)
  parseBody chk valid ty r

/-- `parse_multiple` (775-783); a block takes at least one byte, so the length of the input bounds the recursion. -/
def parseMultiple (chk : Bool) (valid : Bytes → Bool) : Nat → Bytes → Res (List Block)
  | 0, _ => .err
  | fuel + 1, i => do
    let (b, r) ← parseBlock chk valid i
    if r.isEmpty then .ok [b]
    else do
      let bs ← parseMultiple chk valid fuel r
      return b :: bs

/-- `Block::parse` (786-788). -/
def parseBlocks (chk : Bool) (valid : Bytes → Bool) (i : Bytes) : Res (List Block) :=
  parseMultiple chk valid (i.length + 1) i

/-- The range bytes of an ACK block (871-874). -/
def rangeBytes (ranges : List (Nat × Nat)) : Bytes := (ranges.map fun (n, a) => be 1 n ++ be 1 a).flatten

/-- `Block::serialize` (826-880); `none` is the `todo!()` panic. -/
def Block.serialize : Block → Option Bytes
  | .dateTime t => some (be 1 0 ++ be 2 4 ++ be 4 t)
  | .address (.v4 ip port) => some (be 1 13 ++ be 2 6 ++ be 2 port ++ ip)
  | .address (.v6 ip port) => some (be 1 13 ++ be 2 18 ++ be 2 port ++ ip)
  | .padding p => some (be 1 254 ++ be 2 p.length ++ p)
  | .ack t n rs => some (be 1 12 ++ be 2 (5 + rs.length * 2) ++ be 4 t ++ be 1 n ++ rangeBytes rs)
  | _ => none

end Emissary.Ssu2
