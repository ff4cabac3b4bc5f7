/-!
# Vocabulary shared by all models

The C code is modelled by total functions.  A computation that may run into
undefined behaviour (out-of-bounds access, shift by the word width, NULL
dereference, …) returns an `Option`; `none` *means* undefined behaviour.  So
"the code never does X" is a theorem about the model and not an assumption.

Memory blocks are lists of bytes; `rd`/`wr` are `memcpy` from / into a block with
the bounds check that C leaves to the programmer.
-/
namespace Verif.C

/-- A byte. -/
abbrev Byte := UInt8

/-- `2^64`, the modulus of `size_t`, `uint64_t`, `unsigned long (long)` (LP64). -/
def W64 : Nat := 18446744073709551616

/-- `2^32`, the modulus of `unsigned int`/`uint32_t`. -/
def W32 : Nat := 4294967296

/-- The bytes of a C string literal (only used with ASCII literals; no terminating NUL). -/
def bytes (s : String) : List Byte := s.toList.map (fun c => c.toNat.toUInt8)

/-- The byte of a C character literal. -/
def ch (c : Char) : Byte := c.toNat.toUInt8

/-- Read `n` elements at offset `i`; undefined unless they lie inside the block. -/
def rd {α : Type} (b : List α) (i n : Nat) : Option (List α) :=
  if i + n ≤ b.length then some ((b.drop i).take n) else none

/-- Overwrite the block with `d` at offset `i`; undefined unless it lies inside. -/
def wr {α : Type} (b : List α) (i : Nat) (d : List α) : Option (List α) :=
  if i + d.length ≤ b.length then some (b.take i ++ d ++ b.drop (i + d.length)) else none

/-- Fresh memory of `n` bytes with arbitrary content `junk` (what `malloc` returns). -/
def fresh {α : Type} (junk : Nat → α) (n : Nat) : List α := (List.range n).map junk

/-- errno values as returned (negated) by the code. -/
def ENOENT : Int := 2
def ENOMEM : Int := 12
def EFAULT : Int := 14
def EBUSY : Int := 16
def EINVAL : Int := 22
def ERANGE : Int := 34

theorem rd_some {α : Type} {b : List α} {i n : Nat} (h : i + n ≤ b.length) :
    rd b i n = some ((b.drop i).take n) := by simp [rd, h]

theorem wr_some {α : Type} {b d : List α} {i : Nat} (h : i + d.length ≤ b.length) :
    wr b i d = some (b.take i ++ d ++ b.drop (i + d.length)) := by simp [wr, h]

theorem length_of_rd {α : Type} {b d : List α} {i n : Nat} (h : rd b i n = some d) :
    d.length = n := by
  unfold rd at h; split at h <;> simp at h; subst h; simp; omega

theorem length_of_wr {α : Type} {b b' d : List α} {i : Nat} (h : wr b i d = some b') :
    b'.length = b.length := by
  unfold wr at h; split at h <;> simp at h; subst h; simp; omega

theorem getElem?_of_wr {α : Type} {b b' d : List α} {i : Nat} (h : wr b i d = some b') (j : Nat) :
    b'[j]? = if i ≤ j ∧ j < i + d.length then d[j - i]? else b[j]? := by
  unfold wr at h; split at h <;> simp at h; subst h
  simp only [List.getElem?_append, List.length_take, List.getElem?_take,
    List.getElem?_drop]
  grind

theorem getElem?_of_rd {α : Type} {b d : List α} {i n : Nat} (h : rd b i n = some d) (j : Nat) :
    d[j]? = if j < n then b[i + j]? else none := by
  unfold rd at h; split at h <;> simp at h; subst h
  simp [List.getElem?_take]

@[simp] theorem length_fresh {α : Type} (junk : Nat → α) (n : Nat) :
    (fresh junk n).length = n := by simp [fresh]

theorem rd_ex {α : Type} {b : List α} {i n : Nat} (h : i + n ≤ b.length) :
    ∃ d, rd b i n = some d ∧ d.length = n ∧ ∀ j : Nat, d[j]? = if j < n then b[i + j]? else none :=
  ⟨_, rd_some h, length_of_rd (rd_some h), getElem?_of_rd (rd_some h)⟩

theorem wr_ex {α : Type} {b d : List α} {i : Nat} (h : i + d.length ≤ b.length) :
    ∃ b', wr b i d = some b' ∧ b'.length = b.length ∧
      ∀ j : Nat, b'[j]? = if i ≤ j ∧ j < i + d.length then d[j - i]? else b[j]? :=
  ⟨_, wr_some h, length_of_wr (wr_some h), getElem?_of_wr (wr_some h)⟩

/-- Induction from the right. -/
theorem snocInd {α : Type _} {P : List α → Prop} (nil : P []) (snoc : ∀ l a, P l → P (l ++ [a])) :
    ∀ l, P l := by
  intro l
  have : ∀ m : List α, P m.reverse := by
    intro m
    induction m with
    | nil => exact nil
    | cons a t ih => rw [List.reverse_cons]; exact snoc _ _ ih
  simpa using this l.reverse

end Verif.C
