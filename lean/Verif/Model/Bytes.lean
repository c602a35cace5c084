/-!
# Byte buffers and nom-style parsers

Shared vocabulary for every codec in the model.  Models the pieces of the `nom` and `bytes` crates the
repository uses: `nom::number::complete::{be_u8,be_u16,be_u32,be_u64}`, `nom::bytes::complete::take`,
`bytes::BufMut::{put_u8,put_u16,put_u32,put_u64}` and `{u16,u32,u64}::to_be_bytes`.

Simplification: the nom error value (kind and position) is collapsed to `none`; every caller in the
repository only distinguishes `Ok` from `Err`.
-/

namespace Emissary

/-- A byte buffer (`&[u8]`, `Vec<u8>`, `BytesMut`). -/
abbrev Bytes := List UInt8

/-- A nom parser: `IResult<&[u8], α>` with the error collapsed. -/
abbrev Parser (α : Type) := Bytes → Option (α × Bytes)

/-- Big-endian image of the low `8*k` bits of `n`; `put_u8/put_u16/put_u32/put_u64` and
`to_be_bytes` for `k = 1, 2, 4, 8` (an `as uN` cast before the call is the implicit `% 256^k`). -/
def be : Nat → Nat → Bytes
  | 0, _ => []
  | k + 1, n => UInt8.ofNat (n / 256 ^ k) :: be k n

/-- Value of a big-endian byte string. `Buf::get_u8/get_u16/get_u32/get_u64`, library. -/
def unbe : Bytes → Nat
  | [] => 0
  | b :: bs => b.toNat * 256 ^ bs.length + unbe bs

/-- `nom::bytes::complete::take(k)`. Standard or external library, not in /repo. -/
def takeN (k : Nat) : Parser Bytes := fun input =>
  if k ≤ input.length then some (input.take k, input.drop k) else none

/-- `be_u8` / `be_u16` / `be_u32` / `be_u64` for `k = 1, 2, 4, 8`. -/
def beU (k : Nat) : Parser Nat := fun input =>
  if k ≤ input.length then some (unbe (input.take k), input.drop k) else none

end Emissary
