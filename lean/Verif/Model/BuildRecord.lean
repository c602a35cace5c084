import Verif.Model.I2np
import Verif.Model.Primitives
/-!
# Tunnel build records

Models `emissary-core/src/i2np/tunnel/build/short.rs` and `variable.rs`.
-/
namespace Emissary.Build
open Emissary Emissary.I2np Emissary.Prim

/-- Input of `TunnelBuildRecordBuilder`, short.rs:58-79 (all fields set; an unset field panics). -/
structure ShortParams where
  tunnelId : Nat
  nextTunnelId : Nat
  nextRouter : Bytes
  role : HopRole
  requestTime : Nat
  requestExpiration : Nat
  nextMessageId : Nat
deriving Repr

/-- `TunnelBuildRecordBuilder::serialize`, short.rs:133-153. `rng n` are the `n` random bytes of padding. -/
def ShortParams.serialize (p : ShortParams) (rng : Nat → Bytes) : Bytes :=
  let out := be 4 p.tunnelId ++ be 4 p.nextTunnelId ++ p.nextRouter ++ be 1 p.role.code ++ be 2 0 ++ be 1 0 ++
    be 4 p.requestTime ++ be 4 p.requestExpiration ++ be 4 p.nextMessageId ++ be 2 0
  out ++ rng (154 + 16 - out.length - 16)

/-- `short::TunnelBuildRecord`, short.rs:158-173. -/
structure ShortRecord where
  nextMessageId : Nat
  nextRouter : Bytes
  nextTunnelId : Nat
  role : HopRole
  tunnelId : Nat
deriving Repr, DecidableEq

/-- `short::TunnelBuildRecord::parse_frame`, short.rs:179-203. -/
def ShortRecord.parseFrame (E : Env) : Parser ShortRecord := fun input => do
  let (tid, rest) ← beU 4 input
  let (ntid, rest) ← beU 4 rest
  let (next, rest) ← takeN 32 rest
  let (flags, rest) ← beU 1 rest
  let (_, rest) ← takeN 2 rest
  let (_, rest) ← beU 1 rest
  let (_, rest) ← beU 4 rest
  let (_, rest) ← beU 4 rest
  let (mid, rest) ← beU 4 rest
  let (_, rest) ← Mapping.parseMulti E rest
  let (_, rest) ← takeN rest.length rest
  let role ← HopRole.ofCode flags
  return ({ nextMessageId := mid, nextRouter := next, nextTunnelId := ntid, role := role, tunnelId := tid }, rest)

/-- `short::TunnelBuildRecord::parse`, short.rs:206-208. -/
def ShortRecord.parse (E : Env) (input : Bytes) : Option ShortRecord :=
  (ShortRecord.parseFrame E input).map Prod.fst

/-- `TunnelBuildReplyBuilder::from_records`, short.rs:41-53. -/
def fromRecords (records : List Bytes) : Bytes := be 1 records.length ++ records.flatten

/-- `variable::TunnelBuildRecord`, variable.rs:33-56. -/
structure VarRecord where
  tunnelId : Nat
  nextTunnelId : Nat
  nextRouter : Bytes
  layerKey : Bytes
  ivKey : Bytes
  role : HopRole
  nextMessageId : Nat
deriving Repr, DecidableEq

/-- `variable::TunnelBuildRecord::parse_frame`, variable.rs:62-91. -/
def VarRecord.parseFrame (E : Env) : Parser VarRecord := fun input => do
  let (tid, rest) ← beU 4 input
  let (ntid, rest) ← beU 4 rest
  let (next, rest) ← takeN 32 rest
  let (lk, rest) ← takeN 32 rest
  let (ik, rest) ← takeN 32 rest
  let (_, rest) ← takeN 32 rest
  let (_, rest) ← takeN 16 rest
  let (flags, rest) ← beU 1 rest
  let (_, rest) ← takeN 3 rest
  let (_, rest) ← beU 4 rest
  let (_, rest) ← beU 4 rest
  let (mid, rest) ← beU 4 rest
  let (_, rest) ← Mapping.parseMulti E rest
  let (_, rest) ← takeN (input.length - rest.length) rest
  let role ← HopRole.ofCode flags
  return ({ tunnelId := tid, nextTunnelId := ntid, nextRouter := next, layerKey := lk, ivKey := ik, role := role,
            nextMessageId := mid }, rest)

/-- `variable::TunnelBuildRecord::parse`, variable.rs:94-96. -/
def VarRecord.parse (E : Env) (input : Bytes) : Option VarRecord :=
  (VarRecord.parseFrame E input).map Prod.fst

end Emissary.Build
