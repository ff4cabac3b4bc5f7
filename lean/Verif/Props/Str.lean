import Verif.Proof.Str
/-! # C09, C14, C15, C64, C65 – growable buffers and string helpers -/
namespace Verif.Str
open Verif.C

/-! ## C14 -/

/-- A request to a growable buffer: the needed size and the outcome of `realloc`. -/
abbrev Req := Nat × Option (Nat → Byte)

/-- A sequence of requests to the zeroing variant, with the answers. -/
def growAll (b : Buf) : List Req → Option (Buf × List Bool)
  | [] => some (b, [])
  | (need, ra) :: t => do
    let (b, ok) ← greedy0 b need ra
    let (b, oks) ← growAll b t
    return (b, ok :: oks)

/-- **C14**, one request.  The block always has the size the caller believes; a successful
request leaves at least `need` bytes with the old content in front; a failed one (only if
`realloc` failed) changes nothing. -/
theorem greedy_sound (b : Buf) (need : Nat) (ra : Option (Nat → Byte))
    (hb : b.mem.length = b.size) (hn : need ≤ 2 ^ 63) :
    ∃ b' ok, greedy b need ra = some (b', ok) ∧
      ((ok = true ∧ need ≤ b'.size ∧ b'.mem.length = b'.size ∧ b.size ≤ b'.size ∧
          b'.mem.take b.size = b.mem) ∨
       (ok = false ∧ ra = none ∧ b' = b ∧ b.size < need)) :=
  greedy_ex need ra hb hn

/-- **C14**, the zeroing variant: all bytes gained are zero. -/
theorem greedy0_sound (b : Buf) (need : Nat) (ra : Option (Nat → Byte))
    (hb : b.mem.length = b.size) (hn : need ≤ 2 ^ 63) :
    ∃ b' ok, greedy0 b need ra = some (b', ok) ∧ b'.mem.length = b'.size ∧
      ((ok = true ∧ need ≤ b'.size ∧
          b'.mem = b.mem ++ List.replicate (b'.size - b.size) 0) ∨
       (ok = false ∧ ra = none ∧ b' = b ∧ b.size < need)) :=
  greedy0_ex need ra hb hn

/-- **C14**, any sequence of requests: capacity covers every granted request, what was
there at the start is still there, and everything behind it is zero. -/
theorem greedy_requests (reqs : List Req) (b : Buf) (hb : b.mem.length = b.size)
    (hn : ∀ q ∈ reqs, q.1 ≤ 2 ^ 63) :
    ∃ b' oks, growAll b reqs = some (b', oks) ∧ oks.length = reqs.length ∧
      b'.mem.length = b'.size ∧ b.size ≤ b'.size ∧
      b'.mem = b.mem ++ List.replicate (b'.size - b.size) 0 ∧
      (∀ p ∈ reqs.zip oks, p.2 = true → p.1.1 ≤ b'.size) ∧
      (∀ p ∈ reqs.zip oks, p.2 = false → p.1.2 = none) := by
  induction reqs generalizing b with
  | nil => exact ⟨b, [], rfl, rfl, hb, Nat.le_refl _, by simp, by simp, by simp⟩
  | cons q t ih =>
    obtain ⟨need, ra⟩ := q
    obtain ⟨b1, ok, e, hl, h⟩ := greedy0_ex need ra hb (hn (need, ra) (by simp))
    have hle : b.size ≤ b1.size := by
      rcases h with ⟨-, -, h⟩ | ⟨-, -, h, -⟩
      · have := congrArg List.length h
        rw [List.length_append, hl, hb] at this; omega
      · rw [h]; exact Nat.le_refl _
    have hmem : b1.mem = b.mem ++ List.replicate (b1.size - b.size) 0 := by
      rcases h with ⟨-, -, h⟩ | ⟨-, -, h, -⟩
      · exact h
      · rw [h]; simp
    obtain ⟨b', oks, e', h1, h2, h3, h4, h5, h6⟩ := ih b1 hl (fun q hq => hn q (by simp [hq]))
    refine ⟨b', ok :: oks, ?_, by simp [h1], h2, by omega, ?_, ?_, ?_⟩
    · unfold growAll
      simp only [e, e', Option.bind_eq_bind, Option.bind_some]
      rfl
    · rw [h4, hmem, List.append_assoc, List.replicate_append_replicate]
      congr 2; omega
    · intro p hp hok
      simp only [List.zip_cons_cons, List.mem_cons] at hp
      rcases hp with rfl | hp
      · rcases h with ⟨-, h, -⟩ | ⟨h, -⟩
        · simp only; omega
        · simp [h] at hok
      · exact h5 p hp hok
    · intro p hp hok
      simp only [List.zip_cons_cons, List.mem_cons] at hp
      rcases hp with rfl | hp
      · rcases h with ⟨h, -⟩ | ⟨-, h, -⟩
        · simp [h] at hok
        · exact h
      · exact h6 p hp hok

/-- **C14**, element-wise variants, as long as the byte size (of up to twice the request)
fits a `size_t`.  Missing from the full claim: larger products, see
`greedyT_overflow_refuted`. -/
theorem greedyT_sound_partial (b : Buf) (need ts : Nat) (ra : Option (Nat → Byte))
    (hb : b.mem.length = b.size * ts) (hts : 0 < ts)
    (hn : 2 * (need + 64) * ts ≤ W64) (hn2 : need ≤ 2 ^ 63) :
    ∃ b' ok, greedy0T b need ts ra = some (b', ok) ∧ b'.mem.length = b'.size * ts ∧
      ((ok = true ∧ need ≤ b'.size ∧ b.size ≤ b'.size ∧
          b'.mem = b.mem ++ List.replicate ((b'.size - b.size) * ts) 0) ∨
       (ok = false ∧ ra = none ∧ b' = b ∧ b.size < need)) :=
  greedy0T_ex need ts ra hb hts hn hn2

/-- The unrestricted claim is false for the element-wise variants: a request for `2^61`
elements of 8 bytes succeeds with a block of 0 bytes because `ncnt * ts` wraps. -/
theorem greedyT_overflow_refuted :
    ∃ (b : Buf) (need ts : Nat) (ra : Option (Nat → Byte)), b.mem.length = b.size * ts ∧
      ∃ b', greedyT b need ts ra = some (b', true) ∧ b'.mem.length < need * ts := by
  refine ⟨⟨[], 0⟩, 2 ^ 61, 8, some (fun _ => 0), by simp, ?_⟩
  obtain ⟨k, hk, e, hge, hlt⟩ := Ring.alignPow2_spec (u := 2 ^ 61) (by decide) (by decide)
  have hk' : k = 61 := by
    have h1 : 61 ≤ k := (Nat.pow_le_pow_iff_right (by decide)).1 hge
    have h2 : k < 62 := (Nat.pow_lt_pow_iff_right (a := 2) (by decide)).1 (by omega)
    omega
  subst hk'
  refine ⟨⟨[], 2 ^ 61⟩, ?_, by decide⟩
  unfold greedyT
  rw [if_neg (by decide), if_neg (by decide), if_neg (by decide), e]
  simp only [Option.bind_eq_bind, Option.bind_some]
  rw [if_neg (by decide)]
  have : 2 ^ 61 * 8 % W64 = 0 := by decide
  rw [this]
  rfl

example : ∃ b' , growAll ⟨[], 0⟩ [(3, some (fun _ => 7)), (100, none), (100, some (fun _ => 9))]
    = some (b', [true, false, true]) ∧ b'.size = 128 ∧ b'.mem.length = 128 := by
  refine ⟨⟨List.replicate 128 0, 128⟩, ?_, rfl, by simp⟩
  decide +kernel

/-! ## C64 -/

/-- **C64**, `shl_strcat`: the block holds exactly the concatenation and a NUL. -/
theorem strcat_exact (f s : Option (List Byte)) (junk : Nat → Byte)
    (h : (f.getD []).length + (s.getD []).length + 1 < W64) :
    strcat f s (some junk) = some (some (f.getD [] ++ s.getD [] ++ [0])) ∧
    strcat f s none = some none := by
  constructor
  · have := strcat_ex (f.getD []) (s.getD []) junk h
    unfold strcat at *
    simpa using this
  · unfold strcat
    simp only
    split <;> rfl

/-- **C64**, `shl_strjoin`: same for any number of strings. -/
theorem strjoin_exact (args : List (List Byte)) (junk : Nat → Byte)
    (h : args.flatten.length + 1 < W64) :
    strjoin args (some junk) = some (some (args.flatten ++ [0])) := by
  unfold strjoin
  rw [joinLen_ex args 0 (by omega)]
  simp only [Nat.zero_add, Nat.mod_eq_of_lt h]
  obtain ⟨r', e, hl⟩ := joinCopy_ex args [] (fresh junk (args.flatten.length + 1)) (by simp)
  simp only [List.nil_append, List.length_nil, Nat.zero_add] at e
  simp only [e, Option.bind_eq_bind, Option.bind_some]
  have hr : r'.length = 1 := by simp only [length_fresh] at hl; omega
  rw [wr_some (by rw [List.length_append]; simp only [List.length_cons, List.length_nil]; omega)]
  have : List.drop (args.flatten.length + [0].length) (args.flatten ++ r') = [] :=
    List.drop_eq_nil_of_le (by rw [List.length_append, hr]; simp)
  rw [show ([0] : List Byte).length = 1 from rfl] at *
  rw [List.take_left, List.drop_eq_nil_of_le (by rw [List.length_append, hr]; exact Nat.le_refl _)]
  simp only [List.append_nil]
  rfl

/-- **C64**: a sum of lengths that does not fit is refused. -/
theorem strcat_too_long (f s : List Byte) (m : Option (Nat → Byte))
    (hf : f.length < W64) (hs : s.length + 1 < W64) (h : f.length + s.length + 1 ≥ W64) :
    strcat (some f) (some s) m = some none := by
  unfold strcat
  simp only [Option.getD_some]
  rw [if_pos]
  rw [Nat.mod_eq_sub_mod h, Nat.mod_eq_of_lt (by omega)]
  omega

example : strjoin [bytes "ab", [], bytes "c"] (some (fun _ => 255)) = some (some (bytes "abc" ++ [0])) := by
  decide +kernel

/-! ## C09 -/

/-- **C09.** With memory available, splitting returns exactly the maximal runs of
non-separator bytes. -/
theorem strsplit_exact (str sep : List Byte) (al : Nat → Alloc)
    (ha : ∀ n, (al n).malloc = true ∧ (al n).realloc = true)
    (hlen : str.length ≤ 10 ^ 18) :
    strsplitN str sep al true = some (some (Spec.tokens (· ∈ sep) str)) :=
  (strsplitN_ex str sep al (fun n => (ha n).1) hlen).resolve_right
    (fun h => by obtain ⟨n, hn⟩ := h.2; simp [(ha n).2] at hn)

/-- **C09**, read off the result: no token is empty or contains a separator, and together
they are the input without its separators. -/
theorem strsplit_loses_only_separators (str sep : List Byte) (al : Nat → Alloc)
    (ha : ∀ n, (al n).malloc = true ∧ (al n).realloc = true) (hlen : str.length ≤ 10 ^ 18) :
    ∃ toks, strsplitN str sep al true = some (some toks) ∧
      (∀ t ∈ toks, t ≠ [] ∧ ∀ c ∈ t, c ∉ sep) ∧
      toks.flatten = str.filter (· ∉ sep) := by
  refine ⟨_, strsplit_exact str sep al ha hlen, ?_, ?_⟩
  · intro t ht
    rw [Spec.tokens, List.mem_filter] at ht
    refine ⟨by simpa using ht.2, fun c hc => ?_⟩
    simpa using mem_pieces _ _ t ht.1 c hc
  · rw [Spec.tokens, flatten_filter_ne, flatten_pieces]
    simp

/-- **C65** (violated): when the copy of a token cannot be allocated, splitting does not
report an error – it writes through the NULL pointer. -/
theorem strsplit_oom_refuted :
    ∃ (str sep : List Byte) (al : Nat → Alloc), strsplitN str sep al true = none :=
  ⟨bytes "a b", bytes " ", fun _ => ⟨true, false⟩, by decide +kernel⟩

/-- **C65**, the part that holds: failures of the first allocation and of growing the token
vector are reported as an error; nothing is undefined and no partial result is returned.
Missing: failure of the allocation of a token. -/
theorem strsplit_oom_partial (str sep : List Byte) (al : Nat → Alloc)
    (ha : ∀ n, (al n).malloc = true) (hlen : str.length ≤ 10 ^ 18) :
    strsplitN str sep al false = some none ∧
    (strsplitN str sep al true = some (some (Spec.tokens (· ∈ sep) str)) ∨
     (strsplitN str sep al true = some none ∧ ∃ n, (al n).realloc = false)) :=
  ⟨by simp [strsplitN], strsplitN_ex str sep al ha hlen⟩

example : strsplitN (bytes "  a bb\tc ") (bytes " \t") (fun _ => ⟨true, true⟩) true =
    some (some [bytes "a", bytes "bb", bytes "c"]) := by decide +kernel

/-! ## C15 -/

/-- **C15.** The test succeeds exactly on component-wise prefixes of the same kind. -/
theorem path_startswith_iff (p q : List Byte) :
    (pathStartswith (some p) (some q)).isSome ↔
      ((Spec.absolute p ↔ Spec.absolute q) ∧ Spec.comps q <+: Spec.comps p) := by
  unfold pathStartswith Spec.absolute
  have hs := pathLoop_spec p q
  simp only
  by_cases h : (p.head? = some (ch '/')) ↔ (q.head? = some (ch '/'))
  · rw [if_neg (by simp [h])]
    refine ⟨fun hh => ⟨h, ?_⟩, fun hh => hs.2 hh.2⟩
    obtain ⟨r, e⟩ := Option.isSome_iff_exists.1 hh
    rw [(hs.1 r e).1]
    exact List.prefix_append _ _
  · rw [if_pos (by simpa using h)]
    simp [h]

/-- **C15**: the rest that is returned is the tail of `path` starting at the first
component that was not matched. -/
theorem path_startswith_rest (p q rest : List Byte)
    (h : pathStartswith (some p) (some q) = some rest) :
    rest <:+ p ∧ Spec.comps p = Spec.comps q ++ Spec.comps rest ∧
      rest.head? ≠ some (ch '/') := by
  unfold pathStartswith at h
  simp only at h
  split at h
  · simp at h
  · obtain ⟨h1, h2, h3⟩ := (pathLoop_spec p q).1 rest h
    exact ⟨h2, h1, h3⟩

example : (pathStartswith (some (bytes "//run//miracle/wifi")) (some (bytes "/run/miracle/"))).isSome :=
  (path_startswith_iff _ _).2 ⟨by unfold Spec.absolute; decide, by decide⟩
example : ¬ (Spec.comps (bytes "/run/mir") <+: Spec.comps (bytes "/run/miracle")) := by decide

end Verif.Str
