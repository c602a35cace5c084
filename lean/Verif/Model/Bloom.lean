import Verif.Model.Bytes
/-!
# The decaying filter for repeated tunnel messages

`emissary-core/src/bloom.rs`. A Bloom filter of the `ethbloom` crate is a word of 2048 bits; an item
stands for the three bits its Keccak hash names. The hash is a parameter, `bits`.
-/
namespace Emissary.Bloom

/-- Width of the filter of the `ethbloom` crate. Standard or external library, not in /repo. -/
def width : Nat := 2048

/-- `BloomFilter` (`bloom.rs` 27-33): the numbers of the bits that are set in either half. -/
structure Filter where
  current : List Nat := []
  previous : List Nat := []
deriving DecidableEq, Repr

/-- `Bloom::contains_input`: all bits of the item are set. Standard or external library, not in /repo. -/
def contains (bits : Bytes → List Nat) (f : List Nat) (b : Bytes) : Bool :=
  (bits b).all fun i => decide (i ∈ f)

/-- `insert` (`bloom.rs` 39-48): the answer `true` for an item not seen before. -/
def Filter.insert (bits : Bytes → List Nat) (f : Filter) (b : Bytes) : Bool × Filter :=
  if contains bits f.current b || contains bits f.previous b then (false, f)
  else (true, { f with current := bits b ++ f.current })

/-- `decay` (`bloom.rs` 51-53). -/
def Filter.decay (f : Filter) : Filter := { current := [], previous := f.current }

/-- What is done with a filter. Not in the code: the events that the theorems quantify over. -/
inductive Op
  | insert (b : Bytes)
  | decay
deriving DecidableEq, Repr

/-- One call; the answer of an insertion. Not in the code: one event, handled by the definitions above. -/
def Filter.step (bits : Bytes → List Nat) (f : Filter) : Op → Filter × Option (Bytes × Bool)
  | .insert b => ((f.insert bits b).2, some (b, (f.insert bits b).1))
  | .decay => (f.decay, none)

/-- A run of calls, with the answers in order. Not in the code: a fold of the steps. -/
def Filter.run (bits : Bytes → List Nat) : List Op → Filter → Filter × List (Bytes × Bool)
  | [], f => (f, [])
  | o :: os, f =>
    let (f', a) := f.step bits o
    let (f'', as) := Filter.run bits os f'
    (f'', a.toList ++ as)

end Emissary.Bloom
