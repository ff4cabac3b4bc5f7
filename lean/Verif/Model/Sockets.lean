import Verif.C.Basic
import Verif.C.Libc
/-!
# The sockets of the connections to wpa_supplicant and the files they leave

Model of `wpas_open`, `wpas_create` and the closing of a bus, `src/shared/wpas.c:902-1150`. The system calls are a contract: files are known by their path as text (no links, no second name of a directory, no
change of the working directory), a path names nothing, a file, a directory or a datagram socket, and a directory that must not be changed (or is missing) is an oracle for each path. A socket is a number, given
out once. A socket that is bound to a path stays there when it is closed; one bound to an abstract name is gone. Memory is never short.
-/
namespace Verif.Sockets
open Verif.C

/-- What a path names. -/
inductive Node
  | file
  | dir
  | sock (id : Nat)
  deriving DecidableEq, Repr

/-- What processes share; `next` is the number of the next socket, `live` tells whether a socket is open, `locked` whether the directory of a path cannot be changed. -/
structure World where
  node : List Byte → Option Node
  abs : List Byte → Option Nat
  live : Nat → Bool
  next : Nat
  locked : List Byte → Bool

/-- The name of a socket; an abstract one has a NUL in front and is padded with NULs to the full length (all calls pass `sizeof(src)`). -/
inductive Addr
  | path (p : List Byte)
  | abs (n : List Byte)
  deriving DecidableEq, Repr

def EADDRINUSE : Int := 98
def EACCES : Int := 13
def ECONNREFUSED : Int := 111
def EMFILE : Int := 24

/-- `bind` (contract). -/
def bind (w : World) (id : Nat) : Addr → Int × World
  | .path p =>
    if (w.node p).isSome then (-EADDRINUSE, w)
    else if w.locked p then (-EACCES, w)
    else (0, { w with node := fun q => if q = p then some (.sock id) else w.node q })
  | .abs n =>
    match w.abs n with
    | some i => if w.live i then (-EADDRINUSE, w) else (0, { w with abs := fun q => if q = n then some id else w.abs q })
    | none => (0, { w with abs := fun q => if q = n then some id else w.abs q })

/-- `connect` (contract): the error or the socket at the other end. -/
def connect (w : World) : Addr → Int ⊕ Nat
  | .path p =>
    match w.node p with
    | none => .inl (-ENOENT)
    | some (.sock i) => if w.live i then .inr i else .inl (-ECONNREFUSED)
    | some _ => .inl (-ECONNREFUSED)
  | .abs n =>
    match w.abs n with
    | some i => if w.live i then .inr i else .inl (-ECONNREFUSED)
    | none => .inl (-ECONNREFUSED)

/-- `unlink` (contract). -/
def unlink (w : World) (p : List Byte) : World :=
  if w.locked p ∨ w.node p = some .dir then w else { w with node := fun q => if q = p then none else w.node q }

/-- `socket` (contract): a new one. -/
def socket (w : World) : Nat × World := (w.next, { w with next := w.next + 1, live := fun i => if i = w.next then true else w.live i })

/-- `close` (contract). -/
def close (w : World) (id : Nat) : World := { w with live := fun i => if i = id then false else w.live i }

/-- `UNIX_PATH_MAX`, `src/shared/wpas.c:43`: the size of `sun_path`. -/
def PATH_MAX : Nat := 108

/-- The name of a client, `src/shared/wpas.c:40` and `src/shared/wpas.c:921-926`: `snprintf` writes at most `UNIX_PATH_MAX - 2` bytes. -/
def clientName (pid counter : Nat) : List Byte := (bytes "/tmp/.miracle-wpas-" ++ dec pid ++ bytes "-" ++ dec counter).take (PATH_MAX - 2)

/-- The address of a control path, `src/shared/wpas.c:956-971` and `src/shared/wpas.c:1023-1039`; `none` is -EINVAL. The second component is `abstract` of the server. An empty path leaves `sun_path` empty: that is
the abstract name of NULs. -/
def addrOf (path : List Byte) : Option (Addr × Bool) :=
  if path.take 10 = bytes "@abstract:" then
    if path.length > PATH_MAX - 12 then none else some (.abs (path.drop 10), true)
  else if path.length > PATH_MAX - 1 then none
  else some (if path = [] then .abs [] else .path path, false)

/-- `wpas__bind_client_socket`, `src/shared/wpas.c:902-943`. -/
def bindClient (w : World) (id : Nat) (name : List Byte) : Int × World :=
  let r := bind w id (.path name)
  if r.1 = -EADDRINUSE then bind (unlink r.2 name) id (.path name) else r

/-- A bus as far as its socket goes; `name` is `fd_name`, `isOpen` is `fd >= 0`. -/
structure Bus where
  id : Nat
  name : List Byte
  server : Bool
  peer : Option Nat
  isOpen : Bool
  deriving DecidableEq, Repr

/-- `wpas__new_client_socket`, `src/shared/wpas.c:981-1011`, with `wpas__connect_client_socket` (`945-979`); `nofd`: no socket can be made. -/
def newClient (w : World) (name path : List Byte) (nofd : Bool) : Int × World × Option Bus :=
  if nofd then (-EMFILE, w, none)
  else
    let s := socket w
    let r := bindClient s.2 s.1 name
    if r.1 < 0 then (r.1, close (unlink r.2 name) s.1, none)
    else
      match addrOf path with
      | none => (-EINVAL, close (unlink r.2 name) s.1, none)
      | some a =>
        match connect r.2 a.1 with
        | .inl e => (e, close (unlink r.2 name) s.1, none)
        | .inr i => (0, r.2, some ⟨s.1, name, false, some i, true⟩)

/-- `wpas__bind_server_socket`, `src/shared/wpas.c:1013-1061`, without the name. -/
def bindServer (w : World) (id : Nat) (path : List Byte) (a : Addr × Bool) : Int × World :=
  let r := bind w id a.1
  if r.1 < 0 then
    if a.2 then (-EADDRINUSE, r.2)
    else
      match connect r.2 a.1 with
      | .inl _ => bind (unlink r.2 path) id a.1
      | .inr _ => (-EADDRINUSE, r.2)
  else r

/-- `wpas__new_server_socket`, `src/shared/wpas.c:1063-1083`. The name is `sun_path` as a string (`1057-1058`), empty for abstract names. -/
def newServer (w : World) (path : List Byte) (nofd : Bool) : Int × World × Option Bus :=
  if nofd then (-EMFILE, w, none)
  else
    let s := socket w
    match addrOf path with
    | none => (-EINVAL, close s.2 s.1, none)
    | some a =>
      let r := bindServer s.2 s.1 path a
      if r.1 < 0 then (r.1, close r.2 s.1, none)
      else (0, r.2, some ⟨s.1, (match a.1 with | .path p => p | .abs _ => []), true, none, true⟩)

/-- `wpas__close`, `src/shared/wpas.c:1085-1096`. -/
def closeBus (w : World) (b : Bus) : World × Bus :=
  let w := if b.isOpen then close w b.id else w
  let w := if b.name ≠ [] then unlink w b.name else w
  (w, { b with isOpen := false, name := [] })

/-- What others do. -/
inductive Outside
  | put (p : List Byte) (dir : Bool)
  | remove (p : List Byte)
  | listen (a : Addr)
  | die (id : Nat)
  deriving DecidableEq, Repr

/-- What happens. -/
inductive Op
  | open (path : List Byte) (nofd : Bool)
  | create (path : List Byte) (nofd : Bool)
  | close (k : Nat)
  | outside (o : Outside)
  deriving DecidableEq, Repr

/-- A process: `counter` is `real_counter`, `busses` all busses it ever had, in the order in which they were made. -/
structure Proc where
  w : World
  pid : Nat
  counter : Nat
  busses : List Bus

/-- What others do (contract). A path that is taken cannot be taken again; sockets of this process are not closed by others. -/
def outside (s : Proc) : Outside → Proc
  | .put p d => if (s.w.node p).isSome then s else { s with w := { s.w with node := fun q => if q = p then some (if d then .dir else .file) else s.w.node q } }
  | .remove p => { s with w := { s.w with node := fun q => if q = p then none else s.w.node q } }
  | .listen a => let r := socket s.w; { s with w := (bind r.2 r.1 a).2 }
  | .die id => if s.busses.any (fun b => b.isOpen && b.id == id) then s else { s with w := close s.w id }

/-- The code returned and the process afterwards: `wpas_open` (`src/shared/wpas.c:1108-1146`), `wpas_create` (`1148-1151`), `wpas__close` of a bus at its last reference or at a hangup. `real_counter` counts only if there is a socket. -/
def step (s : Proc) : Op → Int × Proc
  | .open path nofd =>
    let c := (s.counter + 1) % W64
    let r := newClient s.w (clientName s.pid c) path nofd
    (r.1, { s with w := r.2.1, counter := if nofd then s.counter else c, busses := s.busses ++ r.2.2.toList })
  | .create path nofd =>
    let r := newServer s.w path nofd
    (r.1, { s with w := r.2.1, busses := s.busses ++ r.2.2.toList })
  | .close k =>
    match s.busses[k]? with
    | none => (0, s)
    | some b => let r := closeBus s.w b; (0, { s with w := r.1, busses := s.busses.set k r.2 })
  | .outside o => (0, outside s o)

/-- A run. -/
def run (s : Proc) : List Op → Proc
  | [] => s
  | o :: t => run (step s o).2 t

end Verif.Sockets
