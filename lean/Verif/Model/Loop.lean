set_option autoImplicit false

/-!
# Index loops

The shape `for j := range ... { s[j] = upd(j, s[j]) }` that many of the Go loops have.
-/

namespace Verif.Loop

/-- `for _, j := range js { s[j] = upd(j, s[j]) }`; `none` if an index is out of range or `upd` panics. -/
def forUpd {α : Type} (upd : Nat → α → Option α) : List Nat → List α → Option (List α)
  | [], s => some s
  | j :: js, s => do
    let v ← s[j]?
    let v' ← upd j v
    forUpd upd js (s.set j v')

end Verif.Loop
