import Verif.C.Basic
/-!
# Model of the hash table `src/shared/shl_htable.c`

Open addressing with linear probing, deleted markers, and "common bits": the bits equal in all
stored pointers are used to keep hash bits, and one of them, the "perfect bit", tells that an
entry sits in its home bucket.

Pointers and `uintptr_t`/`size_t` values are 64-bit vectors.  Sizes (`elems`, `deleted`, `max`,
`max_with_deleted`) are natural numbers: they are bounded by the table size, so they never wrap.
Undefined behaviour (index outside the table, `1 << bits` beyond an `int`) is `none`; a probe loop
that meets no free slot in a whole round would never end and is `none` as well.
-/
namespace Verif.Htable
open Verif.C

/-- `uintptr_t`, `size_t`. -/
abbrev W := BitVec 64

/-- `struct htable`, `shl_htable.c:31-43`/`shl_htable.h:36-45`.  `table = none` stands for
`table == &ht->perfect_bit`. -/
structure HT where
  bits : Nat
  elems : Nat
  deleted : Nat
  max : Nat
  maxWithDeleted : Nat
  mask : W
  cbits : W
  perfect : W
  table : Option (List W)
deriving DecidableEq, Repr

/-- `HTABLE_INITIALIZER`, `htable_init`, `shl_htable.c:45-50,89-98`. -/
def init : HT :=
  { bits := 0, elems := 0, deleted := 0, max := 0, maxWithDeleted := 0, mask := BitVec.allOnes 64,
    cbits := 0#64, perfect := 0#64, table := none }

/-- The memory `ht->table` points to. -/
def HT.tab (ht : HT) : List W := ht.table.getD [ht.perfect]

/-- `HTABLE_DELETED`, `shl_htable.c:22`. -/
def DELETED : W := 1#64

/-- `get_extra_ptr_bits`, `shl_htable.c:57-61`. -/
def extraBits (ht : HT) (e : W) : W := e &&& ht.mask
/-- `get_raw_ptr`, `shl_htable.c:63-66`. -/
def rawPtr (ht : HT) (e : W) : W := (e &&& ~~~ht.mask) ||| ht.cbits
/-- `make_hval`, `shl_htable.c:68-72`. -/
def makeHval (ht : HT) (p b : W) : W := (p &&& ~~~ht.mask) ||| b
/-- `entry_is_valid`, `shl_htable.c:74-77`. -/
def isValid (e : W) : Bool := decide (e.toNat > DELETED.toNat)
/-- `get_hash_ptr_bits`, `shl_htable.c:79-87`. -/
def hashBits (ht : HT) (h : W) : W := (h ^^^ (h >>> ht.bits)) &&& ht.mask &&& ~~~ht.perfect

/-- `(1 << ht->bits) - 1` with an `int` shift. -/
def idxMask (ht : HT) : Option Nat := if ht.bits < 31 then some (2 ^ ht.bits - 1) else none

/-- `hash_bucket`, `shl_htable.c:158-161`. -/
def hashBucket (ht : HT) (h : W) : Option Nat := do
  let m ← idxMask ht
  return h.toNat &&& m

/-- The loop of `htable_val`, `shl_htable.c:163-177`; returns the offset and the pointer
(0 = NULL). -/
def val (ht : HT) (perfect : W) : Nat → Nat → W → Option (Nat × W)
  | 0, _, _ => none
  | fuel + 1, off, h2 => do
    let e ← ht.tab[off]?
    if e = 0#64 then some (off, 0#64)
    else if e ≠ DELETED ∧ extraBits ht e = h2 then some (off, rawPtr ht e)
    else do
      let m ← idxMask ht
      val ht perfect fuel ((off + 1) &&& m) (h2 &&& ~~~perfect)

/-- `htable_firstval`, `shl_htable.c:179-184`. -/
def firstval (ht : HT) (h : W) : Option (Nat × W) := do
  let off ← hashBucket ht h
  val ht ht.perfect (ht.tab.length + 1) off (hashBits ht h ||| ht.perfect)

/-- `htable_nextval`, `shl_htable.c:186-191`. -/
def nextval (ht : HT) (off : Nat) (h : W) : Option (Nat × W) := do
  let m ← idxMask ht
  val ht 0#64 (ht.tab.length + 1) ((off + 1) &&& m) (hashBits ht h ||| 0#64)

/-- The loop of `ht_add`, `shl_htable.c:194-206`: the slot and the remaining `perfect`. -/
def addSlot (ht : HT) : Nat → Nat → W → Option (Nat × W)
  | 0, _, _ => none
  | fuel + 1, i, perfect => do
    let e ← ht.tab[i]?
    if isValid e then do
      let m ← idxMask ht
      addSlot ht fuel ((i + 1) &&& m) 0#64
    else some (i, perfect)

/-- Write `table[i] = v` (the table is not the built-in one). -/
def setTab (ht : HT) (i : Nat) (v : W) : Option HT :=
  match ht.table with
  | none => none
  | some t => if i < t.length then some { ht with table := some (t.set i v) } else none

/-- `ht_add`, `shl_htable.c:194-206`. -/
def htAdd (ht : HT) (p h : W) : Option HT := do
  let i ← hashBucket ht h
  let r ← addSlot ht (ht.tab.length + 1) i ht.perfect
  setTab ht r.1 (makeHval ht p (hashBits ht h ||| r.2))

/-- The search of `double_table` for the lowest bit of the mask, `shl_htable.c:225-232`. -/
def lowBit (mask : W) : Nat → Nat → W
  | 0, _ => 0#64
  | n + 1, i => if mask.getLsbD i then 1#64 <<< i else lowBit mask n (i + 1)

/-- Re-adding the old entries, `shl_htable.c:235-240`. -/
def readd (rehash : W → W) : HT → List W → Option HT
  | ht, [] => some ht
  | ht, e :: t =>
    if isValid e then do
      let ht ← htAdd ht (rawPtr ht e) (rehash (rawPtr ht e))
      readd rehash ht t
    else readd rehash ht t

/-- `double_table`, `shl_htable.c:208-245`.  `mem` is whether `calloc` succeeds; `none` in the
result's first component never occurs, the flag is the return value. -/
def doubleTable (rehash : W → W) (mem : Bool) (ht : HT) : Option (HT × Bool) :=
  if ht.bits + 1 ≥ 31 then none
  else if !mem then some (ht, false)
  else
    let ht1 : HT := { ht with
      bits := ht.bits + 1
      max := 3 * 2 ^ (ht.bits + 1) / 4
      maxWithDeleted := 9 * 2 ^ (ht.bits + 1) / 10
      perfect := if ht.perfect = 0#64 ∧ ht.mask ≠ 0#64 then lowBit ht.mask 64 0 else ht.perfect
      table := some (List.replicate (2 ^ (ht.bits + 1)) 0#64) }
    match ht.table with
    | none => some ({ ht1 with deleted := 0 }, true)
    | some old => do
      let ht2 ← readd rehash ht1 old
      return ({ ht2 with deleted := 0 }, true)

/-- `for (start = 0; ht->table[start]; start++);`, `shl_htable.c:253`. -/
def findStart : List W → Option Nat
  | [] => none
  | e :: t => if e = 0#64 then some 0 else (findStart t).map (· + 1)

/-- The loop of `rehash_table`, `shl_htable.c:255-267`: `n` rounds left. -/
def rehashLoop (rehash : W → W) (start : Nat) : Nat → Nat → HT → Option HT
  | 0, _, ht => some ht
  | n + 1, i, ht => do
    let m ← idxMask ht
    let h := (i + start) &&& m
    let e ← ht.tab[h]?
    if e = 0#64 then rehashLoop rehash start n (i + 1) ht
    else if e = DELETED then do
      let ht ← setTab ht h 0#64
      rehashLoop rehash start n (i + 1) ht
    else if e &&& ht.perfect = 0#64 then do
      let p := rawPtr ht e
      let ht ← setTab ht h 0#64
      let ht ← htAdd ht p (rehash p)
      rehashLoop rehash start n (i + 1) ht
    else rehashLoop rehash start n (i + 1) ht

/-- `rehash_table`, `shl_htable.c:247-269`. -/
def rehashTable (rehash : W → W) (ht : HT) : Option HT := do
  let start ← findStart ht.tab
  let ht ← rehashLoop rehash start (2 ^ ht.bits) 0 ht
  return { ht with deleted := 0 }

/-- `for (i = 63; i > 0; i--) if (p & (1 << i)) break;`, `shl_htable.c:282-285`. -/
def topBit (p : W) : Nat → Nat
  | 0 => 0
  | i + 1 => if p.getLsbD (i + 1) then i + 1 else topBit p i

/-- `update_common`, `shl_htable.c:272-312`. -/
def updateCommon (ht : HT) (p : W) : HT :=
  if ht.elems = 0 then
    let m : W := ~~~(1#64 <<< topBit p 63)
    { ht with mask := m, cbits := p &&& m, perfect := 1#64 }
  else
    let maskdiff := ht.cbits ^^^ (p &&& ht.mask)
    let bitsdiff := ht.cbits &&& maskdiff
    { ht with
      table := ht.table.map (·.map fun e => if isValid e then (e &&& ~~~maskdiff) ||| bitsdiff else e)
      mask := ht.mask &&& ~~~maskdiff
      cbits := ht.cbits &&& ~~~maskdiff
      perfect := ht.perfect &&& ~~~maskdiff }

/-- `htable_add`, `shl_htable.c:314-327` (`shl_htable_insert` maps the flag to 0 or -ENOMEM).
`assert(p)` failing is `none`. -/
def add (rehash : W → W) (mem : Bool) (ht : HT) (h p : W) : Option (HT × Bool) := do
  let r ← (if ht.elems + 1 > ht.max then doubleTable rehash mem ht else some (ht, true))
  if r.2 = false then return (r.1, false)
  else do
    let ht ← (if r.1.elems + 1 + r.1.deleted > r.1.maxWithDeleted then rehashTable rehash r.1 else some r.1)
    if p = 0#64 then none
    else do
      let ht := if p &&& ht.mask ≠ ht.cbits then updateCommon ht p else ht
      let ht ← htAdd ht p h
      return ({ ht with elems := ht.elems + 1 }, true)

/-- `htable_delval`, `shl_htable.c:329-337`; failing assertions are `none`. -/
def delval (ht : HT) (off : Nat) : Option HT := do
  let e ← ht.tab[off]?
  if isValid e then do
    let ht ← setTab { ht with elems := ht.elems - 1 } off DELETED
    return { ht with deleted := ht.deleted + 1 }
  else none

/-- The search loop shared by `shl_htable_lookup` and `shl_htable_remove`,
`shl_htable.c:379-387,408-417`, from a candidate `c` at `off` on.  The compare function is
already applied to the searched object. -/
def find (cmp : W → Bool) (h : W) (ht : HT) : Nat → Nat × W → Option (Option (Nat × W))
  | 0, _ => none
  | fuel + 1, r =>
    if r.2 = 0#64 then some none
    else if cmp r.2 then some (some r)
    else do
      let r' ← nextval ht r.1 h
      find cmp h ht fuel r'

/-- `shl_htable_lookup`, `shl_htable.c:372-390`. -/
def lookup (cmp : W → Bool) (h : W) (ht : HT) : Option (Option W) := do
  let r ← firstval ht h
  let o ← find cmp h ht (ht.tab.length + 1) r
  return o.map (·.2)

/-- `shl_htable_remove`, `shl_htable.c:401-420`. -/
def remove (cmp : W → Bool) (h : W) (ht : HT) : Option (HT × Option W) := do
  let r ← firstval ht h
  let o ← find cmp h ht (ht.tab.length + 1) r
  match o with
  | none => return (ht, none)
  | some (off, c) => do
    let ht ← delval ht off
    return (ht, some c)

/-- `shl_htable_this_or_next`, `shl_htable.c:121-131`; `none` stands for `SIZE_MAX`. -/
def thisOrNext (ht : HT) (i : Nat) : Option Nat :=
  match ht.table with
  | none => none
  | some t => ((t.drop i).findIdx? isValid).map (· + i)

/-- `shl_htable_get_entry`, `shl_htable.c:133-142` (0 = NULL). -/
def getEntry (ht : HT) (i : Option Nat) : W :=
  match i with
  | none => 0#64
  | some i => if i < 2 ^ ht.bits then
      match ht.tab[i]? with
      | none => 0#64
      | some e => if isValid e then rawPtr ht e else 0#64
    else 0#64

/-- `SHL_HTABLE_FOREACH`, `shl_htable.h:89-93`: the elements seen from `htable__i` on. -/
def foreach (ht : HT) : Nat → Option Nat → Option (List W)
  | 0, _ => none
  | fuel + 1, i =>
    if getEntry ht i = 0#64 then some []
    else do
      let l ← foreach ht fuel (thisOrNext ht (i.getD 0 + 1))
      return getEntry ht i :: l

/-- `SHL_HTABLE_FOREACH(iter, ht)`. -/
def iterate (ht : HT) : Option (List W) := foreach ht (ht.tab.length + 1) (thisOrNext ht 0)

/-- `htable_visit`, `shl_htable.c:144-156`: the elements the callback sees. -/
def visit (ht : HT) : List W :=
  match ht.table with
  | none => []
  | some t => (t.filter isValid).map (rawPtr ht)

/-- `htable_clear`, `shl_htable.c:100-119`: what the callback sees, and the new table. -/
def clear (ht : HT) : HT × List W := (init, visit ht)

/-- A call.  `hash` arguments are those the type-safe wrappers pass: the element's hash on
insertion, the key's on lookup and removal; `cmp` is `compare(obj, ·)`. -/
inductive Op where
  | insert (mem : Bool) (p : W)
  | remove (cmp : W → Bool) (h : W)
  | lookup (cmp : W → Bool) (h : W)
  | iterate
  | visit
  | clear

/-- What a call returns. -/
inductive Out where
  | ok (b : Bool)
  | found (c : Option W)
  | seen (l : List W)
deriving DecidableEq, Repr

/-- One call. -/
def step (rehash : W → W) (ht : HT) : Op → Option (HT × Out)
  | .insert mem p => do
    let r ← add rehash mem ht (rehash p) p
    return (r.1, .ok r.2)
  | .remove cmp h => do
    let r ← remove cmp h ht
    return (r.1, .found r.2)
  | .lookup cmp h => do
    let r ← lookup cmp h ht
    return (ht, .found r)
  | .iterate => do
    let l ← iterate ht
    return (ht, .seen l)
  | .visit => some (ht, .seen (visit ht))
  | .clear => some ((clear ht).1, .seen (clear ht).2)

/-- A sequence of calls with all results. -/
def run (rehash : W → W) : HT → List Op → Option (HT × List Out)
  | ht, [] => some (ht, [])
  | ht, o :: t => do
    let r ← step rehash ht o
    let r' ← run rehash r.1 t
    return (r'.1, r.2 :: r'.2)

end Verif.Htable
