import Verif.Model.Ring
/-!
# Model of the growable buffers and string helpers of `src/shared/shl_util.c`

Byte strings are lists without the terminating NUL.  `realloc`/`malloc` are arguments:
`none` = NULL was returned, `some junk` = success with `junk` in the new bytes.
-/
namespace Verif.Str
open Verif.C
open Verif.Ring (alignPow2)

/-- `realloc(mem, n)` on success: the common prefix is kept, the rest is junk. -/
def realloc (mem : List Byte) (n : Nat) (junk : Nat → Byte) : List Byte :=
  mem.take n ++ fresh junk (n - mem.length)

/-- A growable buffer: the heap block and the size variable kept beside it. -/
structure Buf where
  mem : List Byte
  size : Nat
deriving DecidableEq, Repr

/-- `shl_greedy_realloc`, `shl_util.c:231-250`.  The Boolean is "returned non-NULL";
when nothing has to be done `*mem` is returned, which is taken to be non-NULL. -/
def greedy (b : Buf) (need : Nat) (ra : Option (Nat → Byte)) : Option (Buf × Bool) :=
  if b.size ≥ need then some (b, true)
  else do
    let nsize ← alignPow2 (if 64 > need then 64 else need)
    if nsize = 0 then some (b, false)
    else match ra with
      | none => some (b, false)
      | some junk => some (⟨realloc b.mem nsize junk, nsize⟩, true)

/-- `shl_greedy_realloc0`, `shl_util.c:252-265`. -/
def greedy0 (b : Buf) (need : Nat) (ra : Option (Nat → Byte)) : Option (Buf × Bool) := do
  let prev := b.size
  let (b, ok) ← greedy b need ra
  if !ok then some (b, false)
  else if b.size > prev then do
    let mem ← wr b.mem prev (List.replicate (b.size - prev) 0)
    some (⟨mem, b.size⟩, true)
  else some (b, true)

/-- `shl_greedy_realloc_t`, `shl_util.c:267-288`; `size` counts elements of `ts` bytes.
`ncnt * ts` is a `size_t` product. -/
def greedyT (b : Buf) (need ts : Nat) (ra : Option (Nat → Byte)) : Option (Buf × Bool) :=
  if b.size ≥ need then some (b, true)
  else if ts = 0 then some (b, false)
  else do
    let ncnt ← alignPow2 (if 64 > need then 64 else need)
    if ncnt = 0 then some (b, false)
    else match ra with
      | none => some (b, false)
      | some junk => some (⟨realloc b.mem (ncnt * ts % W64) junk, ncnt⟩, true)

/-- `shl_greedy_realloc0_t`, `shl_util.c:290-303`. -/
def greedy0T (b : Buf) (need ts : Nat) (ra : Option (Nat → Byte)) : Option (Buf × Bool) := do
  let prev := b.size
  let (b, ok) ← greedyT b need ts ra
  if !ok then some (b, false)
  else if b.size > prev then do
    let mem ← wr b.mem (prev * ts) (List.replicate ((b.size - prev) * ts) 0)
    some (⟨mem, b.size⟩, true)
  else some (b, true)

/-- `strcpy(&dst[off], src)`: copies `src` and its terminating NUL. -/
def strcpyAt (dst : List Byte) (off : Nat) (src : List Byte) : Option (List Byte) :=
  wr dst off (src ++ [0])

/-- `shl_strcat`, `shl_util.c:309-332`; `none` arguments are NULL pointers.  Result: UB, or
NULL (`some none`), or the memory block of the new string. -/
def strcat (first second : Option (List Byte)) (malloc : Option (Nat → Byte)) :
    Option (Option (List Byte)) :=
  let first := first.getD []
  let second := second.getD []
  let flen := first.length
  let slen := second.length
  if (flen + slen + 1) % W64 ≤ flen then some none
  else match malloc with
    | none => some none
    | some junk => do
      let str := fresh junk ((flen + slen + 1) % W64)
      let str ← strcpyAt str 0 first
      let str ← strcpyAt str flen second
      return some str

/-- First loop of `shl_strjoin`, `shl_util.c:342-348`: total length, `none` on overflow. -/
def joinLen : List (List Byte) → Nat → Option Nat
  | [], len => some len
  | a :: t, len =>
    let l := a.length
    if (len + l) % W64 < len then none else joinLen t ((len + l) % W64)

/-- Second loop of `shl_strjoin`, `shl_util.c:358-359` (`stpcpy` writes a NUL each time). -/
def joinCopy : List (List Byte) → List Byte → Nat → Option (List Byte × Nat)
  | [], str, p => some (str, p)
  | a :: t, str, p => do
    let str ← strcpyAt str p a
    joinCopy t str (p + a.length)

/-- `shl_strjoin`, `shl_util.c:334-365`, with the variadic arguments as a list. -/
def strjoin (args : List (List Byte)) (malloc : Option (Nat → Byte)) : Option (Option (List Byte)) :=
  match joinLen args 0 with
  | none => some none
  | some len =>
    match malloc with
    | none => some none
    | some junk => do
      let (str, p) ← joinCopy args (fresh junk ((len + 1) % W64)) 0
      let str ← wr str p [0]
      return some str

/-- The token vector while splitting: tokens so far, `*strv_size` in bytes. -/
structure Strv where
  toks : List (List Byte)
  size : Nat
deriving DecidableEq, Repr

/-- Outcome of the allocations of one push: `realloc` (if called) and `malloc`. -/
structure Alloc where
  realloc : Bool
  malloc : Bool

/-- `shl__split_push`, `shl_util.c:367-388`: `none` = UB (NULL dereference: the result of
`malloc` is not checked), `some (v, false)` = -ENOMEM.  Only the size of the pointer array
is kept (`sizeof(char*)` = 8), its slots are the `toks`.  The copied token is `tok`. -/
def splitPush (v : Strv) (tok : List Byte) (al : Alloc) : Option (Strv × Bool) := do
  let need := (v.toks.length + 2) * 8
  let (size, ok) ←
    if v.size ≥ need then some (v.size, true)
    else do
      let nsize ← alignPow2 (if 64 > need then 64 else need)
      if nsize = 0 then some (v.size, false)
      else if al.realloc then some (nsize, true) else some (v.size, false)
  if !ok then some (v, false)
  else if !al.malloc then none
  else if (v.toks.length + 1) * 8 ≤ size then some (⟨v.toks ++ [tok], size⟩, true)
  else none

/-- The loop of `shl_strsplit_n`, `shl_util.c:410-431`, as a recursion over the remaining
input; `i` is the index, `pos` the start of the current token.  `al k` are the allocation
outcomes of the k-th push. -/
def splitLoop (str sep : List Byte) (al : Nat → Alloc) :
    List Byte → Nat → Nat → Strv → Option (Strv × Nat × Bool)
  | [], _, pos, v => some (v, pos, true)
  | c :: rest, i, pos, v =>
    if c ∈ sep then
      if pos ≠ i then do
        let tok ← rd str pos (i - pos)
        let (v', ok) ← splitPush v tok (al v.toks.length)
        if ok then splitLoop str sep al rest (i + 1) (i + 1) v'
        else some (v', pos, false)
      else splitLoop str sep al rest (i + 1) (i + 1) v
    else splitLoop str sep al rest (i + 1) pos v

/-- `shl_strsplit_n`, `shl_util.c:390-456` (`sep` is a NUL-terminated string, so it has no
NUL).  Result: UB, or an error (`some none`), or the tokens.  The conversion of the count
to `int` is not modelled (it would need 2^31 tokens). -/
def strsplitN (str sep : List Byte) (al : Nat → Alloc) (firstMalloc : Bool) :
    Option (Option (List (List Byte))) :=
  if !firstMalloc then some none
  else do
    let (v, pos, ok) ← splitLoop str sep al str 0 0 ⟨[], 8⟩
    if !ok then some none
    else
      let i := str.length
      let (v, ok) ←
        if i > 0 ∧ pos ≠ i then do
          let tok ← rd str pos (i - pos)
          splitPush v tok (al v.toks.length)
        else some (v, true)
      if !ok then some none
      else if (v.toks.length + 1) * 8 ≤ v.size then some (some v.toks)
      else none

/-- `strspn(s, "/")`. -/
def spanSlash (s : List Byte) : List Byte := s.dropWhile (· = ch '/')

/-- Loop of `shl__path_startswith`, `shl_util.c:797-813`. -/
def pathLoop (path pre : List Byte) : Option (List Byte) :=
  let path := spanSlash path
  let pre' := spanSlash pre
  if pre' = [] then some path
  else if path = [] then none
  else
    let pathl := (path.takeWhile (· ≠ ch '/')).length
    let prefixl := (pre'.takeWhile (· ≠ ch '/')).length
    if pathl ≠ prefixl ∨ path.take pathl ≠ pre'.take pathl then none
    else pathLoop (path.drop pathl) (pre'.drop prefixl)
termination_by pre.length
decreasing_by
  have h1 : (spanSlash pre).length ≤ pre.length := (List.dropWhile_suffix _).length_le
  rename_i h _ _
  cases hs : spanSlash pre with
  | nil => exact absurd hs h
  | cons a t =>
    have ha : a ≠ ch '/' := by
      have := List.head_dropWhile_not (p := (· = ch '/')) (l := pre) (by
        change spanSlash pre ≠ []; rw [hs]; simp)
      have e : (pre.dropWhile (· = ch '/')) = a :: t := hs
      simp only [e, List.head_cons] at this
      simpa using this
    rw [hs] at h1
    simp only [List.takeWhile_cons, ha, ne_eq, not_false_eq_true, decide_true, if_true,
      List.length_cons, List.drop_succ_cons, List.length_drop] at *
    omega

/-- `shl__path_startswith`, `shl_util.c:784-814`; NULL arguments are `none`.  The result is
the rest of `path` (NULL = `none`). -/
def pathStartswith (path pre : Option (List Byte)) : Option (List Byte) :=
  match path, pre with
  | none, _ => none
  | some p, none => some p
  | some p, some q =>
    if (p.head? = some (ch '/')) ≠ (q.head? = some (ch '/')) then none else pathLoop p q

end Verif.Str
