import Verif.Model.Bytes
/-!
# Small helpers every subsystem leans on

`emissary-core/src/util/mod.rs`: the shuffle, the test for a routable address, and the two
socket helpers that read or write a whole buffer.
-/
namespace Emissary.Util

/-! ## `shuffle` -/

/-- `array.swap(i, j)` (`util/mod.rs` 176). Both positions are inside the array whenever the code
calls it; outside it the real call panics, and the model returns the array as it was. -/
def swap (l : List α) (i j : Nat) : List α :=
  match l[i]?, l[j]? with
  | some a, some b => (l.set i b).set j a
  | _, _ => l

/-- `for i in (1..len).rev()` (`util/mod.rs` 174-177), counted down from `i = n`. `draw i` is what
`rng.next_u32()` returned in the turn for `i`. -/
def shuffleFrom (draw : Nat → Nat) : Nat → List α → List α
  | 0, l => l
  | n + 1, l => shuffleFrom draw n (swap l (n + 1) (draw (n + 1) % (n + 2)))

/-- `shuffle` (`util/mod.rs` 171-178). -/
def shuffle (draw : Nat → Nat) (l : List α) : List α := shuffleFrom draw (l.length - 1) l

/-! ## `is_global` -/

/-- The address `a.b.c.d` as a number (`Ipv4Addr::new`, whose order is the order of the octets). -/
abbrev ip (a b c d : Nat) : Nat := ((a * 256 + b) * 256 + c) * 256 + d

/-- `Ipv4Addr::octets`. -/
abbrev octets (x : Nat) : Nat × Nat × Nat × Nat :=
  (x / 16777216, x / 65536 % 256, x / 256 % 256, x % 256)

/-- `Ipv4Addr::is_private` of the standard library. -/
def isPrivate (x : Nat) : Bool :=
  let (a, b, _, _) := octets x
  a == 10 || (a == 172 && decide (16 ≤ b) && decide (b ≤ 31)) || (a == 192 && b == 168)

/-- `Ipv4Addr::is_documentation` of the standard library. -/
def isDocumentation (x : Nat) : Bool :=
  let (a, b, c, _) := octets x
  (a == 192 && b == 0 && c == 2) || (a == 198 && b == 51 && c == 100) ||
    (a == 203 && b == 0 && c == 113)

/-- `is_global` (`util/mod.rs` 189-200). `is_loopback`, `is_link_local`, `is_unspecified` and
`is_broadcast` are those of the standard library. -/
def isGlobal (x : Nat) : Bool :=
  let (a, b, _, _) := octets x
  !((decide (ip 240 0 0 0 ≤ x) && decide (x ≤ ip 255 255 255 254))
    || isPrivate x
    || (decide (ip 100 64 0 0 ≤ x) && decide (x ≤ ip 100 127 255 255))
    || a == 127
    || (a == 169 && b == 254)
    || x == 0
    || isDocumentation x
    || (decide (ip 198 18 0 0 ≤ x) && decide (x ≤ ip 198 19 255 255))
    || x == ip 255 255 255 255)

/-! ## `read_exact` and `write_all` -/

/-- Why a helper gave up: the 10 second timer (`ReadTimeout`), the peer closed the connection
(`SocketClosed`), or an error of the socket itself. -/
inductive Fail
  | timeout
  | closed
  | socket
deriving DecidableEq, Repr

/-- What a call of `poll_read` or `poll_write` gives back. `ready k`: the socket is willing to move
`k` bytes. A read moves no more than fits in the buffer and no more than the peer has sent; a write
no more than there is to write. Not in the code: what the model takes as given, for every value of it. -/
inductive Poll
  | pending
  | error
  | ready (k : Nat)
deriving DecidableEq, Repr

/-- The state of a pending `ReadExact` (`util/mod.rs` 44-48): what of all the peer will ever send
the socket has not handed out yet, what is in the buffer so far, and how much room is left. -/
structure Read where
  stream : Bytes
  got : Bytes := []
  room : Nat
deriving DecidableEq, Repr

/-- The loop of `ReadExact::poll` (71-86) over the answers of the socket; when the answers given
run out the socket is pending. The second component is the result, `none` for `Pending`. -/
def readLoop : List Poll → Read → Read × Option (Except Fail Unit)
  | ps, r =>
    if r.room = 0 then (r, some (.ok ()))
    else match ps with
      | [] => (r, none)
      | .pending :: _ => (r, none)
      | .error :: _ => (r, some (.error .socket))
      | .ready k :: ps =>
        let k := min k (min r.room r.stream.length)
        let r := { stream := r.stream.drop k, got := r.got ++ r.stream.take k, room := r.room - k }
        if k = 0 then (r, some (.error .closed)) else readLoop ps r

/-- `ReadExact::poll` (60-88). `fired`: the timer set when the read began, 10 seconds before, has
fired. -/
def Read.poll (r : Read) (fired : Bool) (ps : List Poll) : Read × Option (Except Fail Unit) :=
  if fired then (r, some (.error .timeout)) else readLoop ps r

/-- The task polls until it gets an answer. Not in the code: a fold of the steps. -/
def Read.run : List (Bool × List Poll) → Read → Read × Option (Except Fail Unit)
  | [], r => (r, none)
  | p :: ps, r =>
    match r.poll p.1 p.2 with
    | (r, none) => Read.run ps r
    | x => x

/-- The state of a pending `WriteAll` (104-107): what the socket has taken, and what is left. -/
structure Write where
  sent : Bytes := []
  left : Bytes
deriving DecidableEq, Repr

/-- `WriteAll::poll` (115-140). -/
def writeLoop : List Poll → Write → Write × Option (Except Fail Unit)
  | ps, w =>
    if w.left = [] then (w, some (.ok ()))
    else match ps with
      | [] => (w, none)
      | .pending :: _ => (w, none)
      | .error :: _ => (w, some (.error .socket))
      | .ready k :: ps =>
        let k := min k w.left.length
        let w := { sent := w.sent ++ w.left.take k, left := w.left.drop k }
        if k = 0 then (w, some (.error .closed)) else writeLoop ps w

/-- The task polls until it gets an answer. Not in the code: a fold of the steps. -/
def Write.run : List (List Poll) → Write → Write × Option (Except Fail Unit)
  | [], w => (w, none)
  | p :: ps, w =>
    match writeLoop p w with
    | (w, none) => Write.run ps w
    | x => x

end Emissary.Util
