/-
Saving objects to streams and files, and reading them back (nn/gob.go).

`encoding/gob` is a parameter: `encode` turns an object into bytes or fails, `decode` reads one object
from the front of a list of bytes and says how many bytes it used, or asks for more, or fails.  The
operating system is a parameter too: `Disk` says which of its calls fail.
-/
set_option autoImplicit false
set_option linter.unusedSimpArgs false

namespace Verif.Gob

/-- The errors, by the call that reports them. -/
inductive Err
  | create | opn | encode | write | close | decode | eof
  deriving DecidableEq, Repr

abbrev Byte := UInt8

/-- What `Decode` makes of the bytes it has so far. -/
inductive Dec (α : Type)
  | done (x : α) (used : Nat)
  | more
  | bad

structure Codec (α : Type) where
  encode : α → Option (List Byte)
  decode : List Byte → Dec α

/-- A writer that takes `room` bytes and then fails (a full disk), and what it has taken. -/
structure Writer where
  room : Nat
  got : List Byte
  deriving DecidableEq, Repr

/-- Writing bytes: all of them, or an error after the first `room`. -/
def Writer.write (w : Writer) (bs : List Byte) : Option Err × Writer :=
  if bs.length ≤ w.room then (none, ⟨w.room - bs.length, w.got ++ bs⟩)
  else (some .write, ⟨0, w.got ++ bs.take w.room⟩)

variable {α : Type}

/-- `Dump` (gob.go:16-26).  The buffered writer keeps the first error and reports it at the next
call, `Flush` at the latest; whether the bytes go out during `Encode` or at `Flush` makes no
difference to the result, so they go out at `Flush`. -/
def dump (C : Codec α) (obj : α) (w : Writer) : Option Err × Writer :=
  match C.encode obj with
  | none => (some .encode, w)
  | some bs =>
    match w.write bs with
    | (some e, w) => (some e, w)
    | (none, w) => (none, w)

/-- The file system calls of one run. -/
structure Disk where
  createFails : Bool
  openFails : Bool
  closeFails : Bool
  room : Nat

def Disk.create (d : Disk) : Option Err := if d.createFails then some .create else none
def Disk.opn (d : Disk) : Option Err := if d.openFails then some .opn else none
def Disk.close (d : Disk) : Option Err := if d.closeFails then some .close else none

/-- A `return v` in a function with an unnamed result followed by the deferred function of
gob.go:35-39 / 60-64: the result is fixed by `return`, then the deferred function closes the file
and assigns to the local variable `err`. The pair is the result and the final value of `err`. -/
def returning {β : Type} (d : Disk) (v : β) (err : Option Err) : β × Option Err :=
  let e := d.close
  let err := if e ≠ none ∧ err = none then e else err
  (v, err)

/-- `DumpToFile` (gob.go:30-44): the error returned and the contents of the file, if one was
created. -/
def dumpToFile (C : Codec α) (d : Disk) (obj : α) : Option Err × Option (List Byte) :=
  let err := d.create
  if err ≠ none then (err, none)
  else
    let (err, w) := dump C obj ⟨d.room, []⟩
    if err ≠ none then ((returning d err err).1, some w.got)
    else ((returning d none err).1, some w.got)

/-- `defaultBufSize` of package bufio. -/
def bufSize : Nat := 4096

/-- `Decode` from a `bufio.Reader`: `buf` are the bytes in the buffer, `rest` those still in the
underlying reader, which gives as many as it is asked for.  Each time the decoder needs more the
buffer asks for `bufSize` bytes.  (For a message longer than the buffer, bufio may read straight into
the place of the decoder; then less is taken from the underlying reader.)  The result is what was
decoded and what is left in the underlying reader. -/
def decodeLoop (C : Codec α) : Nat → List Byte → List Byte → Except Err α × List Byte
  | 0, _, rest => (.error .eof, rest)
  | fuel + 1, buf, rest =>
    match C.decode buf with
    | .done x _ => (.ok x, rest)
    | .bad => (.error .decode, rest)
    | .more =>
      if rest = [] then (.error .eof, [])
      else decodeLoop C fuel (buf ++ rest.take bufSize) (rest.drop bufSize)

/-- `Load` (gob.go:47-53). -/
def load (C : Codec α) (r : List Byte) : Except Err α × List Byte :=
  decodeLoop C (r.length + 1) [] r

/-- `LoadFromFile` (gob.go:57-66). -/
def loadFromFile (C : Codec α) (d : Disk) (file : List Byte) : Except Err α :=
  match d.opn with
  | some e => .error e
  | none => (returning d (load C file).1 d.opn).1

end Verif.Gob
