import Verif.Model.Str
import Verif.Spec.Str
import Verif.C.Libc
/-! # Model of creating directories (`src/shared/shl_util.c:771-882`, `src/wifi/wifid.c:462-475`)

The file system is a contract: a tree of directories and files addressed by lists of names.  Links, the names `.` and
`..`, and search permissions are not modelled; all other reasons why a directory cannot be made (permissions, space,
read-only file systems, long names) are an oracle. -/
namespace Verif.Mkdir
open Verif.C

/-- A place in the tree: the names from the root on. -/
abbrev Loc := List (List Byte)

/-- What is there.  The mode is what was passed to `mkdir`. -/
inductive Kind
  | dir (mode : Nat)
  | file
  deriving DecidableEq, Repr

/-- A file system as a process sees it; `deny q` is the error if the directory `q` must not or cannot be made. -/
structure FS where
  node : Loc → Option Kind
  cwd : Loc
  deny : Loc → Option Nat

/-- Where a path leads. -/
def FS.loc (fs : FS) (path : List Byte) : Loc :=
  if path.head? = some (ch '/') then Str.Spec.comps path else fs.cwd ++ Str.Spec.comps path

/-- Path resolution (contract): the first name that is missing or no directory is the error. -/
def walk (fs : FS) (d : Loc) : Loc → Int
  | [] => 0
  | c :: t =>
    match fs.node d with
    | none => -ENOENT
    | some .file => -20
    | some (.dir _) => walk fs (d ++ [c]) t

/-- `mkdir` at a place (contract, POSIX): the negated `errno` and the new file system. -/
def FS.make (fs : FS) (q : Loc) (mode : Nat) : Int × FS :=
  if walk fs [] q < 0 then (walk fs [] q, fs)
  else match fs.node q with
    | some _ => (-17, fs)
    | none =>
      match fs.deny q with
      | some e => (-(e : Int), fs)
      | none => (0, { fs with node := fun x => if x = q then some (.dir mode) else fs.node x })

/-- `mkdir` (contract, POSIX). -/
def FS.mkdir (fs : FS) (path : List Byte) (mode : Nat) : Int × FS :=
  if path = [] then (-ENOENT, fs) else fs.make (fs.loc path) mode

/-- `shl__is_dir`, `src/shared/shl_util.c:774-782`, over `stat` (contract, POSIX): a slash at the end asks for a
directory. -/
def isDir (fs : FS) (path : List Byte) : Int :=
  if path = [] then -ENOENT
  else if walk fs [] (fs.loc path) < 0 then walk fs [] (fs.loc path)
  else match fs.node (fs.loc path) with
    | none => -ENOENT
    | some .file => if path.getLast? = some (ch '/') then -20 else 0
    | some (.dir _) => 1

/-- The loop of `shl__mkdir_parents`, `src/shared/shl_util.c:841-856`: `done` is what is before `p`, `rest` is what `p`
points to.  The fuel is the length of the path and does not run out (`loop_eq`). -/
def loop (pre : Option (List Byte)) (mode : Nat) : Nat → List Byte → List Byte → FS → Int × FS
  | 0, _, _, fs => (0, fs)
  | n + 1, done, rest, fs =>
    let comp := rest.takeWhile (· ≠ ch '/')
    let after := rest.dropWhile (· ≠ ch '/')
    let slashes := after.takeWhile (· = ch '/')
    let next := after.dropWhile (· = ch '/')
    if next = [] then (0, fs)
    else
      let t := done ++ comp
      if pre.isSome && (Str.pathStartswith pre (some t)).isSome then loop pre mode n (t ++ slashes) next fs
      else
        let r := fs.mkdir t mode
        if r.1 < 0 ∧ r.1 ≠ -17 then (r.1, r.2) else loop pre mode n (t ++ slashes) next r.2

/-- The path up to (not including) the last slash, `src/shared/shl_util.c:825-829`; `none`: no slash, or only the first
byte is one. -/
def parentText (path : List Byte) : Option (List Byte) :=
  if ch '/' ∉ path then none
  else
    let p := (path.reverse.dropWhile (· ≠ ch '/')).drop 1
    if p = [] then none else some p.reverse

/-- `shl__mkdir_parents`, `src/shared/shl_util.c:816-857`.  If the copy of the parent cannot be made, `stat` fails with
EFAULT and the loop runs; this is not modelled. -/
def mkdirParents (fs : FS) (pre path : Option (List Byte)) (mode : Nat) : Int × FS :=
  match Str.pathStartswith path pre, path with
  | none, _ => (-20, fs)
  | some _, none => (-20, fs)
  | some _, some path =>
    match parentText path with
    | none => (0, fs)
    | some p =>
      if isDir fs p > 0 then (0, fs)
      else if isDir fs p = 0 then (-20, fs)
      else
        let s := path.takeWhile (· = ch '/')
        loop pre mode (path.length + 1) s (path.drop s.length) fs

/-- `errno` after the failed `mkdir` and a call of `shl__is_dir` that said no, `src/shared/shl_util.c:868-869`. -/
def errnoAfter (fs : FS) (path : List Byte) : Int := if isDir fs path < 0 then isDir fs path else -17

/-- `shl__mkdir_p`, `src/shared/shl_util.c:859-872`. -/
def mkdirP (fs : FS) (pre path : Option (List Byte)) (mode : Nat) : Int × FS :=
  match mkdirParents fs pre path mode, path with
  | (r, fs1), none => (r, fs1)
  | (r, fs1), some p =>
    if r < 0 then (r, fs1)
    else
      let m := fs1.mkdir p mode
      if m.1 < 0 then
        if m.1 ≠ -17 then (m.1, m.2)
        else if isDir m.2 p ≤ 0 then (errnoAfter m.2 p, m.2)
        else (0, m.2)
      else (0, m.2)

/-- `shl_mkdir_p`, `src/shared/shl_util.c:874-877`. -/
def mkdirAll (fs : FS) (path : Option (List Byte)) (mode : Nat) : Int × FS := mkdirP fs none path mode

/-- The beginning of `manager_startup`, `src/wifi/wifid.c:466-475`: modes 0755 and 0700. -/
def startup (fs : FS) : Int × FS :=
  let r := mkdirP fs (some (bytes "/run")) (some (bytes "/run/miracle")) 493
  if r.1 < 0 then r
  else mkdirP r.2 (some (bytes "/run/miracle")) (some (bytes "/run/miracle/wifi")) 448

end Verif.Mkdir
