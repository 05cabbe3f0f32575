import Mathlib.Order.Basic
/-!
# Model of `MatrixRepr::write_to_file`, `src/matrix_repr.rs:305-320`

`save_patch_to_file` (`src/matrix_repr.rs:527-533`) writes the text to `path ++ "~"` and renames that file. The operating system is modelled
after POSIX: paths name inodes, an open file descriptor refers to an inode and has its own offset, `rename` replaces the name in one step. What
survives a loss of power (`dur`) lags behind what the processes see (`vol`); the operating system writes the directory and the data of each inode
back when it likes. The text (`ser`) is an arbitrary list of bytes.
-/

namespace HexoDSP.Save

abbrev Byte := Nat
abbrev Path := List Char

/-- `src/matrix_repr.rs:309`: `format!("{}~", filepath)`. -/
def tmpPath (p : Path) : Path := p ++ ['~']

/-- Names and contents of files. -/
structure Disk where
  dir : Path → Option Nat
  data : Nat → List Byte

/-- The content of the file with the given name. -/
def Disk.content (d : Disk) (p : Path) : Option (List Byte) := (d.dir p).map d.data

/-- The state of the operating system; inodes from `next` on are free. -/
structure OS where
  vol : Disk
  dur : Disk
  next : Nat

/-- Where a call of `write_to_file` is: before opening the temporary file, writing (inode, offset, bytes left), before the rename, returned
`Ok`, returned `Err`. -/
inductive PC where
  | start
  | writing (inode off : Nat) (rest : List Byte)
  | toRename
  | ok
  | err
  deriving DecidableEq

/-- `OpenOptions::new().create(true).write(true).truncate(true).open(..)` (`src/matrix_repr.rs:314-315`): the inode, emptied or new. -/
def OS.openTrunc (s : OS) (p : Path) : Nat × OS :=
  match s.vol.dir p with
  | some i => (i, { s with vol := { s.vol with data := fun j => if j = i then [] else s.vol.data j } })
  | none =>
    let v : Disk := { dir := fun q => if q = p then some s.next else s.vol.dir q, data := fun j => if j = s.next then [] else s.vol.data j }
    (s.next, { s with vol := v, next := s.next + 1 })

/-- The system call `write`: `chunk` at an offset of an inode (a gap is filled with zeros). -/
def OS.write (s : OS) (i off : Nat) (chunk : List Byte) : OS :=
  let old := s.vol.data i
  let new := old.take off ++ List.replicate (off - old.length) 0 ++ chunk ++ old.drop (off + chunk.length)
  { s with vol := { s.vol with data := fun j => if j = i then new else s.vol.data j } }

/-- The system call `rename`; `none`: it fails because the source does not exist. -/
def OS.rename (s : OS) (p q : Path) : Option OS :=
  match s.vol.dir p with
  | none => none
  | some i => some { s with vol := { s.vol with dir := fun r => if r = q then some i else if r = p then none else s.vol.dir r } }

/-- What happens next: a system call succeeds (a write of the first `k` bytes left) or fails, or the operating system writes something
back. -/
inductive Ev where
  | call (k : Nat)
  | fail
  | flushDir
  | flushData (i : Nat)

/-- `src/matrix_repr.rs:305-320` `write_to_file`, one system call. `write_all` (standard library) repeats `write` until
nothing is left; a failing call makes the function return `Err` (`?`). -/
def callStep (path : Path) (ser : List Byte) (s : OS) (pc : PC) (k : Nat) : OS × PC :=
  match pc with
  | .start => let r := s.openTrunc (tmpPath path); (r.2, .writing r.1 0 ser)
  | .writing _ _ [] => (s, .toRename)
  | .writing i off (b :: rest) =>
    let chunk := (b :: rest).take (max 1 k)
    (s.write i off chunk, .writing i (off + chunk.length) ((b :: rest).drop (max 1 k)))
  | .toRename =>
    match s.rename (tmpPath path) path with
    | none => (s, .err)
    | some s => (s, .ok)
  | .ok => (s, .ok)
  | .err => (s, .err)

/-- A failing system call. -/
def failStep (pc : PC) : PC :=
  match pc with
  | .ok => .ok
  | _ => .err

/-- The operating system writes back; if `ordered`, the directory is only written when all data of named files is. -/
inductive Flush (ordered : Prop) : OS → Ev → OS → Prop where
  | data (s : OS) (i : Nat) : Flush ordered s (.flushData i) { s with dur := { s.dur with data := fun j => if j = i then s.vol.data i else s.dur.data j } }
  | dir (s : OS) (h : ordered → ∀ p i, s.vol.dir p = some i → s.dur.data i = s.vol.data i) :
    Flush ordered s .flushDir { s with dur := { s.dur with dir := s.vol.dir } }

/-- One step of one call of `write_to_file` and the operating system. -/
inductive Step (ordered : Prop) (path : Path) (ser : List Byte) : OS × PC → OS × PC → Prop where
  | call (s : OS) (pc : PC) (k : Nat) : Step ordered path ser (s, pc) (callStep path ser s pc k)
  | fail (s : OS) (pc : PC) : Step ordered path ser (s, pc) (s, failStep pc)
  | flush (s s' : OS) (pc : PC) (e : Ev) (h : Flush ordered s e s') : Step ordered path ser (s, pc) (s', pc)

/-- Any number of steps: where the call may be interrupted. -/
inductive Steps (ordered : Prop) (path : Path) (ser : List Byte) : OS × PC → OS × PC → Prop where
  | refl (c : OS × PC) : Steps ordered path ser c c
  | snoc (c d e : OS × PC) : Steps ordered path ser c d → Step ordered path ser d e → Steps ordered path ser c e

end HexoDSP.Save
