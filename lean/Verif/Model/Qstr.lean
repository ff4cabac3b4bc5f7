import Verif.Model.Str
/-!
# Model of the quoted strings of `src/shared/shl_util.c`

C strings are lists without the terminating NUL, memory blocks are byte lists.
-/
namespace Verif.Qstr
open Verif.C
open Verif.Str

/-- `shl_qstr_unescape_char`, `shl_util.c:484-510`. -/
def unescape (c : Byte) : Byte :=
  if c = ch 'a' then 7
  else if c = ch 'b' then 8
  else if c = ch 'f' then 12
  else if c = ch 'n' then 10
  else if c = ch 'r' then 13
  else if c = ch 't' then 9
  else if c = ch 'v' then 11
  else if c = ch '"' then ch '"'
  else if c = ch '\'' then ch '\''
  else if c = ch '\\' then ch '\\'
  else 0

/-- Variables of `shl_qstr_decode_n`: the block decoded in place, the write cursor, flags. -/
structure Dec where
  buf : List Byte
  pos : Nat
  escaped : Bool
  quoted : Byte
deriving DecidableEq, Repr

/-- `*pos++ = c`. -/
def Dec.put (s : Dec) (c : Byte) : Option Dec := do
  let b ← wr s.buf s.pos [c]
  return { s with buf := b, pos := s.pos + 1 }

/-- Body of the loop of `shl_qstr_decode_n`, `shl_util.c:522-554`, for index `i`.  The input
byte is read from the block that is being overwritten. -/
def decStep (s : Dec) (i : Nat) : Option Dec := do
  let c ← s.buf[i]?
  if s.escaped then
    let s := { s with escaped := false }
    let u := unescape c
    if u ≠ 0 then s.put u
    else if c = 0 then some s
    else do
      let s ← s.put (ch '\\')
      let c ← s.buf[i]?
      s.put c
  else if s.quoted ≠ 0 then
    if c = ch '\\' then some { s with escaped := true }
    else if c = ch '"' ∧ s.quoted = ch '"' then some { s with quoted := 0 }
    else if c = ch '\'' ∧ s.quoted = ch '\'' then some { s with quoted := 0 }
    else if c = 0 then some s
    else s.put c
  else
    if c = ch '\\' then some { s with escaped := true }
    else if c = ch '"' ∨ c = ch '\'' then some { s with quoted := c }
    else if c = 0 then some s
    else s.put c

/-- The loop of `shl_qstr_decode_n` from index `i` with `n` iterations to go. -/
def decLoop : Nat → Nat → Dec → Option Dec
  | 0, _, s => some s
  | n + 1, i, s => do
    let s ← decStep s i
    decLoop n (i + 1) s

/-- `shl_qstr_decode_n`, `shl_util.c:512-561`: decode `len` bytes of the block in place. -/
def decode (buf : List Byte) (len : Nat) : Option (List Byte) := do
  let s ← decLoop len 0 ⟨buf, 0, false, 0⟩
  let s ← if s.escaped then s.put (ch '\\') else some s
  wr s.buf s.pos [0]

/-- The C string at the start of a block; undefined if it is not terminated. -/
def cstr (b : List Byte) : Option (List Byte) :=
  if (0 : Byte) ∈ b then some (b.takeWhile (· ≠ 0)) else none

/-- Outcome of the allocations of one push: `realloc` (if called) and `malloc`. -/
structure QAlloc where
  realloc : Bool
  malloc : Option (Nat → Byte)

/-- `shl__qstr_push`, `shl_util.c:563-585`: as `shl__split_push`, but the copy is decoded.
The result of `malloc` is not checked, so its failure is UB. -/
def push (v : Strv) (raw : List Byte) (al : QAlloc) : Option (Strv × Bool) := do
  let need := (v.toks.length + 2) * 8
  let (size, ok) ←
    if v.size ≥ need then some (v.size, true)
    else do
      let nsize ← Ring.alignPow2 (if 64 > need then 64 else need)
      if nsize = 0 then some (v.size, false)
      else if al.realloc then some (nsize, true) else some (v.size, false)
  if !ok then some (v, false)
  else do
    let junk ← al.malloc
    let ns ← wr (fresh junk (raw.length + 1)) 0 raw
    let ns ← wr ns raw.length [0]
    let ns ← decode ns raw.length
    let tok ← cstr ns
    if (v.toks.length + 1) * 8 ≤ size then some (⟨v.toks ++ [tok], size⟩, true)
    else none

/-- Loop of `shl_qstr_tokenize_n`, `shl_util.c:608-639`, over the remaining input; `i` is the
index, `pos` the start of the current token; `al k` the allocation outcomes of push `k`. -/
def tokLoop (str : List Byte) (al : Nat → QAlloc) :
    List Byte → Nat → Nat → Bool → Byte → Strv → Option (Strv × Nat × Bool)
  | [], _, pos, _, _, v => some (v, pos, true)
  | c :: rest, i, pos, esc, q, v =>
    if esc then tokLoop str al rest (i + 1) pos false q v
    else if c = ch '\\' then tokLoop str al rest (i + 1) pos true q v
    else if q ≠ 0 then
      if c = ch '"' ∧ q = ch '"' then tokLoop str al rest (i + 1) pos false 0 v
      else if c = ch '\'' ∧ q = ch '\'' then tokLoop str al rest (i + 1) pos false 0 v
      else tokLoop str al rest (i + 1) pos false q v
    else if c = ch '"' then tokLoop str al rest (i + 1) pos false (ch '"') v
    else if c = ch '\'' then tokLoop str al rest (i + 1) pos false (ch '\'') v
    else if c = ch ' ' then
      if pos ≠ i then do
        let raw ← rd str pos (i - pos)
        let (v', ok) ← push v raw (al v.toks.length)
        if ok then tokLoop str al rest (i + 1) (i + 1) false 0 v'
        else some (v', pos, false)
      else tokLoop str al rest (i + 1) (i + 1) false 0 v
    else tokLoop str al rest (i + 1) pos false 0 v

/-- `shl_qstr_tokenize_n`, `shl_util.c:587-665`.  Result: UB, or an error (`some none`), or
the tokens.  The check that the count fits an `int` is not modelled (2^31 tokens). -/
def tokenize (str : List Byte) (al : Nat → QAlloc) (firstMalloc : Bool) :
    Option (Option (List (List Byte))) :=
  if !firstMalloc then some none
  else do
    let (v, pos, ok) ← tokLoop str al str 0 0 false 0 ⟨[], 8⟩
    if !ok then some none
    else
      let i := str.length
      let (v, ok) ←
        if i > 0 ∧ pos ≠ i then do
          let raw ← rd str pos (i - pos)
          push v raw (al v.toks.length)
        else some (v, true)
      if !ok then some none
      else if (v.toks.length + 1) * 8 ≤ v.size then some (some v.toks)
      else none

/-- Inner loop of `shl__qstr_encode`, `shl_util.c:679-690`, writing at `dst[l]`. -/
def encLoop : List Byte → List Byte → Nat → Option (List Byte × Nat)
  | [], dst, l => some (dst, l)
  | c :: src, dst, l =>
    if c = ch '\\' ∨ c = ch '"' then do
      let dst ← wr dst l [ch '\\']
      let dst ← wr dst (l + 1) [c]
      encLoop src dst (l + 2)
    else do
      let dst ← wr dst l [c]
      encLoop src dst (l + 1)

/-- `shl__qstr_encode(line + len, src, need_quote)`, `shl_util.c:672-696`; returns the block
and the new `len`. -/
def encode (line : List Byte) (len : Nat) (src : List Byte) (needQuote : Bool) :
    Option (List Byte × Nat) := do
  let (line, len) ← if needQuote then do
      let line ← wr line len [ch '"']
      pure (line, len + 1)
    else some (line, len)
  let (line, len) ← encLoop src line len
  if needQuote then do
    let line ← wr line len [ch '"']
    return (line, len + 1)
  else some (line, len)

/-- The `need_quote` result of `shl__qstr_length`, `shl_util.c:698-717` (its return value is
the string length). -/
def needQuote (s : List Byte) : Bool :=
  s.any (fun c => c = ch ' ' || c = 9 || c = 10 || c = 11)

/-- Loop of `shl_qstr_join`, `shl_util.c:733-759`; `al k` is the outcome of the `realloc` for
the string with `k` strings to go.  `some none` = -ENOMEM. -/
def joinLoop (al : Nat → Option (Nat → Byte)) : List (List Byte) → Buf → Nat →
    Option (Option (Buf × Nat))
  | [], b, len => some (some (b, len))
  | s :: strv, b, len => do
    let l := s.length
    if (l * 2) % W64 < l then some none
    else if ((l * 2) % W64 + len) % W64 < (l * 2) % W64 then some none
    else
      let need := ((l * 2) % W64 + len) % W64
      if (need + 4) % W64 < len then some none
      else do
        let r ← greedyT b ((need + 4) % W64) 1 (al strv.length)
        if r.2 = false then some none
        else do
          let m ← if len ≠ 0 then wr r.1.mem len [ch ' '] else some r.1.mem
          let e ← encode m (if len ≠ 0 then len + 1 else len) s (needQuote s)
          joinLoop al strv ⟨e.1, r.1.size⟩ e.2

/-- `shl_qstr_join`, `shl_util.c:719-768`.  Result: UB, or -ENOMEM (`some none`), or the block
of the line and the returned length. -/
def join (strv : List (List Byte)) (first : Option (Nat → Byte))
    (al : Nat → Option (Nat → Byte)) : Option (Option (List Byte × Nat)) := do
  let r ← greedyT ⟨[], 0⟩ 1 1 first
  if r.2 = false then some none
  else do
    let m ← wr r.1.mem 0 [0]
    let j ← joinLoop al strv ⟨m, r.1.size⟩ 0
    match j with
    | none => some none
    | some (b, len) =>
      if len ≥ 2147483648 then some none
      else do
        let line ← wr b.mem len [0]
        return some (line, len)

end Verif.Qstr
