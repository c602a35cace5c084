/-!
# Ordered maps and sets

Models `alloc::collections::{BTreeMap, BTreeSet}` with `u32` keys as sorted association lists.
Only the operations the repository uses are modelled: `insert`, `remove`, `get`/`contains_key`,
`first`, `iter` (in key order) and `len`.
-/
namespace Emissary

/-- `BTreeMap<u32, β>`: association list in key order. -/
abbrev OMap (β : Type) := List (Nat × β)

namespace OMap
variable {β : Type}

/-- `BTreeMap::insert` (an existing value is replaced). Standard or external library, not in /repo. -/
def ins (k : Nat) (v : β) : OMap β → OMap β
  | [] => [(k, v)]
  | (k', v') :: t =>
    if k < k' then (k, v) :: (k', v') :: t
    else if k = k' then (k, v) :: t
    else (k', v') :: ins k v t

/-- `BTreeMap::get`. Standard or external library, not in /repo. -/
def get? (k : Nat) : OMap β → Option β
  | [] => none
  | (k', v') :: t => if k = k' then some v' else get? k t

/-- `BTreeMap::contains_key`. Standard or external library, not in /repo. -/
def has (k : Nat) (m : OMap β) : Bool := (get? k m).isSome

/-- `BTreeMap::remove` (the removed value, if needed, is read with `get?` first). Standard or external library, not in /repo. -/
def del (k : Nat) (m : OMap β) : OMap β := m.filter (fun e => e.1 != k)

/-- `BTreeMap::keys`. Standard or external library, not in /repo. -/
def keys (m : OMap β) : List Nat := m.map (·.1)

end OMap

/-- `BTreeSet<u32>`: strictly increasing list. -/
abbrev OSet := List Nat

namespace OSet

/-- `BTreeSet::insert`. Standard or external library, not in /repo. -/
def ins (k : Nat) : OSet → OSet
  | [] => [k]
  | k' :: t => if k < k' then k :: k' :: t else if k = k' then k :: t else k' :: ins k t

/-- `BTreeSet::remove`. Standard or external library, not in /repo. -/
def del (k : Nat) (s : OSet) : OSet := s.filter (· != k)

/-- `BTreeSet::first`. Standard or external library, not in /repo. -/
def first (s : OSet) : Option Nat := s.head?

end OSet
end Emissary
