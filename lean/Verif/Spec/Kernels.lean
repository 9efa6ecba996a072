/- What the vector functions of mat/internal/matfuncs should do, over a memory of cells. -/
set_option autoImplicit false

namespace Verif.Spec.Kernels

variable {R : Type}

/-- The `n` elements of `es` bytes from address `p` on. -/
def elems (es : Nat) (m : Nat → R) (p n : Nat) : List R := (List.range n).map fun i => m (p + es * i)

/-- No element of the `n` from `p` on is an element of the `n` from `q` on. -/
def Apart (es n p q : Nat) : Prop := ∀ i j, i < n → j < n → p + es * i ≠ q + es * j

/-- The memory `m'` differs from `m` at most in the `n` elements from `p` on. -/
def OnlyAt (es p n : Nat) (m m' : Nat → R) : Prop :=
  ∀ a, (∀ i, i < n → a ≠ p + es * i) → m' a = m a

end Verif.Spec.Kernels
