import Verif.Model.Forward

/-! # What a program computes when everything runs synchronously, in creation order -/

namespace Verif.Forward
variable {V : Type}

/-- One command executed alone: `p.1` are the values of the operators created so far, `p.2` the
results of the `Value` calls so far. -/
def syncStep (p : List V × List V) : Cmd V → List V × List V
  | .run _ args f => (p.1 ++ [f (args.filterMap fun a => p.1[a]?)], p.2)
  | .value k => (p.1, p.2 ++ (p.1[k]?).toList)

/-- The whole program. -/
def sync (prog : List (Cmd V)) : List V × List V := prog.foldl syncStep ([], [])

/-- The program only mentions operators it has created before (`m`: how many exist already). -/
def Valid : Nat → List (Cmd V) → Prop
  | _, [] => True
  | m, .run _ args _ :: rest => (∀ a ∈ args, a < m) ∧ Valid (m + 1) rest
  | m, .value k :: rest => k < m ∧ Valid m rest

end Verif.Forward
