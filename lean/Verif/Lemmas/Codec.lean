import Verif.Lemmas.Bytes
/-! Rewriting lemmas for parsers written in `Option` do-notation. -/
namespace Emissary

theorem bind_some_pair {α β : Type} (a : α) (r : Bytes) (f : α × Bytes → Option β) :
    (some (a, r) >>= f) = f (a, r) := rfl

theorem bind_some_val {α β : Type} (a : α) (f : α → Option β) : (some a >>= f) = f a := rfl

theorem beU_append {k : Nat} {l : Bytes} (h : l.length = k) (r : Bytes) :
    beU k (l ++ r) = some (unbe l, r) := by
  subst h; simp [beU]

/-- `unbind h with p e`: turn `h : (x >>= f) = some y` into `e : x = some p` and `h : f p = some y`. -/
macro "unbind " h:ident " with " p:rcasesPat e:ident : tactic =>
  `(tactic| (
    have hnew := Option.bind_eq_some_iff.mp $h
    clear $h
    rcases hnew with ⟨$p:rcasesPat, hnew1, hnew2⟩
    have $e:ident := hnew1
    clear hnew1
    have $h:ident := hnew2
    clear hnew2
    try simp only at $e:ident
    try simp only at $h:ident))

end Emissary
