import Verif.Model.Dense

/-!
# Printing a matrix

`mat/dense_formatting.go`. What is written to the `fmt.State` is a list of characters; `none` is a run-time panic. (A
panic inside `fmt.Fprintf` is caught there and printed as `%!v(PANIC=...)`.) `strconv.AppendFloat` and the printing of
slices by `fmt` are parameters.
-/

set_option autoImplicit false
set_option linter.unusedSimpArgs false

namespace Verif.Format

variable {R : Type}

/-- `bytes.IndexByte(buf, '.')`; `none` is -1. -/
def indexDot (buf : List Char) : Option Nat := buf.findIdx? (· == '.')

/-- `maxInt` (dense_formatting.go:149-154). -/
def maxInt (a b : Nat) : Nat := if a > b then a else b

/-- `lrWidth` (dense_formatting.go:108). -/
structure LR where
  left : Nat
  right : Nat

/-- `spaceBuf[:n]` for a buffer of `size` spaces. -/
def spaceSlice (size : Nat) (n : Int) : Option (List Char) :=
  if 0 ≤ n ∧ n ≤ size then some (List.replicate n.toNat ' ') else none

/-- The body of the loop of `formattingMaxColumnsWidth` (dense_formatting.go:127-138) for an element printed as `buf`. -/
def widthStep (minWidth : Nat) (buf : List Char) (w : LR) : LR :=
  match indexDot buf with
  | some pi =>
    let leftSize := if minWidth > buf.length then pi + (minWidth - buf.length) else pi
    ⟨maxInt w.left leftSize, maxInt w.right (buf.length - pi - 1)⟩
  | none => ⟨maxInt w.left buf.length, w.right⟩

/-- One pass of the inner loop (lines 125-139); `index` counts the elements, so it is `row * cols + col`. -/
def widthCol (str : R → List Char) (minWidth : Nat) (d : Dense R) (row : Nat) (st : List LR × Nat) (col : Nat) :
    Option (List LR × Nat) := do
  let v ← d.data[row * d.cols + col]?
  let buf := str v
  let w ← st.1[col]?
  some (st.1.set col (widthStep minWidth buf w), maxInt st.2 buf.length)

/-- The inner loop (line 125). -/
def widthRow (str : R → List Char) (minWidth : Nat) (d : Dense R) (st : List LR × Nat) (row : Nat) :
    Option (List LR × Nat) :=
  (List.range d.cols).foldlM (widthCol str minWidth d row) st

/-- `formattingMaxColumnsWidth` (dense_formatting.go:110-143). -/
def widths (str : R → List Char) (width : Option Nat) (d : Dense R) : Option (List LR × Nat) :=
  (List.range d.rows).foldlM (widthRow str (width.getD 0) d) (List.replicate d.cols ⟨0, 0⟩, 0)

/-- `writeFormattedValue` (dense_formatting.go:68-85), with a buffer of `spaces` spaces. -/
def cell (spaces : Nat) (buf : List Char) (maxW : LR) : Option (List Char) := do
  let leftPadding : Int := match indexDot buf with
    | some pi => (maxW.left : Int) - pi
    | none => (maxW.left : Int) - buf.length
  let rightPadding : Int := match indexDot buf with
    | some pi => (maxW.right : Int) - ((buf.length : Int) - pi - 1)
    | none => if maxW.right > 0 then (maxW.right : Int) + 1 else maxW.right
  let l ← spaceSlice spaces leftPadding
  let r ← spaceSlice spaces rightPadding
  some (l ++ buf ++ r)

/-- `formattingRowPrefixAndSuffix` (dense_formatting.go:95-106). -/
def prefixSuffix (rows rowIndex : Nat) : List Char × List Char :=
  if rows = 1 then (['['], [']'])
  else if rowIndex = 0 then (['⎡'], ['⎤', '\n'])
  else if rowIndex = rows - 1 then (['⎣'], ['⎦'])
  else (['⎢'], ['⎥', '\n'])

/-- One pass of the inner loop of `format` (dense_formatting.go:57-61). -/
def writeCol (str : R → List Char) (ws : List LR) (maxWidth : Nat) (d : Dense R) (row : Nat) (out : List Char)
    (col : Nat) : Option (List Char) := do
  let out := if col > 0 then out ++ [' '] else out
  let v ← d.data[row * d.cols + col]?
  let w ← ws[col]?
  let c ← cell maxWidth (str v) w
  some (out ++ c)

/-- One pass of the outer loop of `format` (dense_formatting.go:53-64). -/
def writeRow (str : R → List Char) (ws : List LR) (maxWidth : Nat) (d : Dense R) (out : List Char) (row : Nat) :
    Option (List Char) := do
  let ps := prefixSuffix d.rows row
  let out ← (List.range d.cols).foldlM (writeCol str ws maxWidth d row) (out ++ ps.1)
  some (out ++ ps.2)

/-- `format` (dense_formatting.go:48-66). -/
def format (str : R → List Char) (width : Option Nat) (d : Dense R) : Option (List Char) := do
  let r ← widths str width d
  (List.range d.rows).foldlM (writeRow str r.1 r.2 d) []

/-- `Format` (dense_formatting.go:17-45). `appendFloat v c p` is what `strconv.AppendFloat` appends, with `p = -1` for no
precision; `sharp` and `plus` are what `fmt` prints of the data with `%#v` and `%+v`. -/
def formatVerb (appendFloat : R → Char → Int → List Char) (sharp plus : List R → List Char) (hash add : Bool)
    (width precision : Option Nat) (c : Char) (d : Dense R) : Option (List Char) :=
  if c = 'v' ∧ hash then some ('&' :: sharp d.data)
  else if c = 'v' ∧ add then some (plus d.data)
  else
    let c := if c = 'v' then 'g' else c
    if d.data.length = 0 then some ['[', ']']
    else
      let c := if c = 'F' then 'f' else c
      let p : Int := match precision with
        | some p => p
        | none => -1
      format (fun v => appendFloat v c p) width d

end Verif.Format
