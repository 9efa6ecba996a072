/-
`selfattention.Model.Forward` (nn/attention/selfattention/model.go:75-101) and `multiheadattention.Model.Forward`
(nn/attention/multiheadattention/model.go:77-109) of float32 on amd64, with the cache of keys and values, call after call.
-/
import Verif.Model.Att32
set_option autoImplicit false

namespace Verif.Head32
open Verif.F32 Verif.Asm Verif.Net32 Verif.Rec32 Verif.Att32

/-- A linear layer (nn/linear/linear.go:16-20). -/
structure Lin where
  rows : Nat
  cols : Nat
  w : List F32.W
  b : List F32.W

/-- `linear.Model.Forward` (nn/linear/linear.go:43-49): each vector by itself. -/
def Linear (cpu : Cpu) (L : Lin) : List (List F32.W) → List (List F32.W) → Prop
  | [], ys => ys = []
  | x :: xs, ys => ∃ y rest, Affine cpu L.rows L.cols L.w L.b x y ∧ Linear cpu L xs rest ∧ ys = y :: rest

/-- An attention head (selfattention/model.go:32-50). -/
structure Head where
  query : Lin
  key : Lin
  value : Lin
  c : F32.W
  causal : Bool
  cross : Bool

/-- The cache (selfattention/model.go:24-29) with values: two matrices of `n` rows. -/
structure Cache where
  n : Nat
  k : List F32.W
  v : List F32.W

/-- Keys and values (selfattention/model.go:80-96).  `AppendRows` (mat/dense.go:1263-1283) writes the vectors after the rows of the matrix,
`Stack` (mat/matrix.go:305-325) one after the other; it fails without vectors (mat/gradfn/stack.go:30-33). -/
def KeysValues (M : Machine) (H : Head) (xs : List (List F32.W)) : Option Cache → Cache → Prop
  | some C, C' => if H.cross then C' = C else
      ∃ k v, Linear M.cpu H.key xs k ∧ Linear M.cpu H.value xs v ∧ C' = ⟨C.n + xs.length, C.k ++ k.flatten, C.v ++ v.flatten⟩
  | none, C' => xs ≠ [] ∧ ∃ k v, Linear M.cpu H.key xs k ∧ Linear M.cpu H.value xs v ∧ C' = ⟨xs.length, k.flatten, v.flatten⟩

/-- `Forward(cache, q, x)`: results with their weights, and the new cache. -/
def Forward (M : Machine) (H : Head) (cache : Option Cache) (qs xs : List (List F32.W)) (out : List (List F32.W × List F32.W))
    (C : Cache) : Prop :=
  ∃ pq, Linear M.cpu H.query qs pq ∧ KeysValues M H xs cache C ∧
    Attention M ⟨C.n, H.key.rows, H.value.rows, C.k, C.v, H.c⟩ H.causal pq out

/-- Calls one after the other, each with the cache of the one before. -/
def Session (M : Machine) (H : Head) : Option Cache → List (List (List F32.W) × List (List F32.W)) →
    List (List (List F32.W × List F32.W)) → Prop
  | _, [], outs => outs = []
  | cache, (qs, xs) :: calls, outs => ∃ out C rest, Forward M H cache qs xs out C ∧ Session M H (some C) calls rest ∧
      outs = out :: rest

/-! ### Several heads -/

/-- `multiheadattention.Model` (nn/attention/multiheadattention/model.go:25-29). -/
structure Multi where
  heads : List Head
  merge : Lin

/-- `Cache.At(i)` (multiheadattention/model.go:71-76); `none` is a panic. -/
def cacheAt (caches : List (Option Cache)) (i : Nat) : Option (Option Cache) := if caches = [] then some none else caches[i]?

/-- The loop over the heads (multiheadattention/model.go:85-87), from the `i`-th on: their results and caches. -/
def Heads (M : Machine) (caches : List (Option Cache)) (qs xs : List (List F32.W)) : Nat → List Head →
    List (List (List F32.W × List F32.W)) → List Cache → Prop
  | _, [], outs, Cs => outs = [] ∧ Cs = []
  | i, H :: Hs, outs, Cs => ∃ cache out C os cs, cacheAt caches i = some cache ∧ Forward M H cache qs xs out C ∧
      Heads M caches qs xs (i + 1) Hs os cs ∧ outs = out :: os ∧ Cs = C :: cs

/-- `ag.Concat` of the results of all heads for query `i` (multiheadattention/model.go:99-105, mat/matrix.go:282-298). -/
def joined (outs : List (List (List F32.W × List F32.W))) (i : Nat) : List F32.W := (outs.map fun out => (out.getD i ([], [])).2).flatten

/-- `Forward(cache, q, x)` (multiheadattention/model.go:79-109).  `Concat` of nothing fails (mat/gradfn/concat.go:33-35). -/
def MultiForward (M : Machine) (A : Multi) (caches : List (Option Cache)) (qs xs ys : List (List F32.W)) (Cs : List Cache) : Prop :=
  ∃ outs, Heads M caches qs xs 0 A.heads outs Cs ∧ (∀ out ∈ outs, out.length = qs.length) ∧ (A.heads = [] → qs = []) ∧
    Linear M.cpu A.merge ((List.range qs.length).map (joined outs)) ys

/-- Calls one after the other, each with the caches of the one before. -/
def MultiSession (M : Machine) (A : Multi) : List (Option Cache) → List (List (List F32.W) × List (List F32.W)) →
    List (List (List F32.W)) → Prop
  | _, [], yss => yss = []
  | caches, (qs, xs) :: calls, yss => ∃ ys Cs rest, MultiForward M A caches qs xs ys Cs ∧ MultiSession M A (Cs.map some) calls rest ∧
      yss = ys :: rest

end Verif.Head32
