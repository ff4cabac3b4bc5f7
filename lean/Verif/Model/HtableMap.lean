import Verif.Model.Htable
/-!
# Model of the hash tables with typed keys (`src/shared/shl_htable.h:113-334`, `src/shared/shl_htable.c:426-474`)

The elements of such a table are addresses; the key is what the memory there holds: a number (`shl_htable_*_uint`,
`_ulong`, `_u64`) or a pointer to a string (`_str`).  The memory is part of the state, so that an address that left the
table may come back with another key.
-/
namespace Verif.HtableMap
open Verif.C Verif.Htable

/-- A sort of keys: how two are compared, the hash, and the hash that is passed on given a remembered one. -/
structure Sort' (K : Type) where
  cmp : K → K → Bool
  hash : K → W
  pass : K → Option W → W

/-- `shl_htable_compare_uint`, `shl_htable_rehash_uint` and the wrappers, `src/shared/shl_htable.c:426-434`,
`src/shared/shl_htable.h:146-168`: an `unsigned int`. -/
def uint : Sort' (BitVec 32) :=
  { cmp := fun a b => a == b
    hash := fun k => k.setWidth 64
    pass := fun k _ => k.setWidth 64 }

/-- `_ulong` and `_u64`, `src/shared/shl_htable.c:436-454`, `src/shared/shl_htable.h:205-227,233-240,263-287`, for a `size_t`
of 64 bits. -/
def u64 : Sort' (BitVec 64) :=
  { cmp := fun a b => a == b
    hash := fun k => k
    pass := fun k _ => k }

/-- `shl_htable_compare_str`, `src/shared/shl_htable.c:456-462`; `none` is NULL, a string is its bytes before the NUL (`strcmp` is
0 for equal strings: contract). -/
def cmpStr (a b : Option (List Byte)) : Bool :=
  match a, b with
  | some x, some y => x == y
  | none, none => true
  | _, _ => false

/-- `shl_htable_rehash_str`, `src/shared/shl_htable.c:465-474`.  `ext` is the conversion of `char` to `size_t`, which extends the
sign on some machines and not on others. -/
def djb (ext : Byte → W) (s : Option (List Byte)) : W :=
  (s.getD []).foldl (fun h c => (h <<< 5) + h + ext c) 5381#64

/-- `shl_htable_hash_str`, `src/shared/shl_htable.h:319-334`: the hash to use, and what is remembered then.  `none`: no place
to remember it was given. -/
def hashStr (ext : Byte → W) (s : Option (List Byte)) (c : Option W) : W × Option W :=
  match c with
  | none => (djb ext s, none)
  | some h => if h ≠ 0#64 then (h, some h) else (djb ext s, some (djb ext s))

/-- The tables of strings, `src/shared/shl_htable.h:336-363`. -/
def str (ext : Byte → W) : Sort' (Option (List Byte)) :=
  { cmp := cmpStr
    hash := djb ext
    pass := fun k c => (hashStr ext k c).1 }

/-- The state: what the memory of the elements holds, and the table. -/
structure St (K : Type) where
  key : W → K
  ht : HT

/-- A call; `c` is the remembered hash.  `insert` includes writing the key to the memory of the new element. -/
inductive Call (K : Type) where
  | insert (mem : Bool) (p : W) (k : K) (c : Option W)
  | remove (k : K) (c : Option W)
  | lookup (k : K) (c : Option W)
  | iterate
  | visit
  | clear

/-- One call. -/
def step {K : Type} (T : Sort' K) (s : St K) : Call K → Option (St K × Out)
  | .insert mem p k c => do
    let key := fun q => if q = p then k else s.key q
    let r ← add (fun q => T.hash (key q)) mem s.ht (T.pass k c) p
    return (⟨key, r.1⟩, .ok r.2)
  | .remove k c => do
    let r ← remove (fun q => T.cmp k (s.key q)) (T.pass k c) s.ht
    return ({ s with ht := r.1 }, .found r.2)
  | .lookup k c => do
    let r ← lookup (fun q => T.cmp k (s.key q)) (T.pass k c) s.ht
    return (s, .found r)
  | .iterate => do
    let l ← iterate s.ht
    return (s, .seen l)
  | .visit => some (s, .seen (visit s.ht))
  | .clear => some ({ s with ht := (clear s.ht).1 }, .seen (clear s.ht).2)

/-- A sequence of calls with all results. -/
def run {K : Type} (T : Sort' K) : St K → List (Call K) → Option (St K × List Out)
  | s, [] => some (s, [])
  | s, o :: t => do
    let r ← step T s o
    let r' ← run T r.1 t
    return (r'.1, r.2 :: r'.2)

end Verif.HtableMap
