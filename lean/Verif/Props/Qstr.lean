import Verif.Proof.Qstr
/-! # C06, C07, C08, C65 – quoted strings -/
namespace Verif.Qstr
open Verif.C
open Verif.Str

/-- Plenty of memory, fresh blocks filled with `x`. -/
def plenty (x : Byte) : Nat → QAlloc := fun _ => ⟨true, some (fun _ => x)⟩

/-- The characters that make `join` put a string into quotes. -/
def hasWhite (t : List Byte) : Prop := ∃ c ∈ t, c = ch ' ' ∨ c = 9 ∨ c = 10 ∨ c = 11

/-! ## C06 -/

/-- **C06** is violated: a single quote in a string without white space is neither escaped
nor protected, so it is lost by the round trip (and so is the empty string). -/
theorem qstr_roundtrip_refuted :
    (∃ line n, join [bytes "it's"] (some fun _ => 0) (fun _ => some fun _ => 0) = some (some (line, n)) ∧
      (cstr line).bind (fun l => tokenize l (plenty 0) true) = some (some [bytes "its"])) ∧
    (∃ line n, join [[]] (some fun _ => 0) (fun _ => some fun _ => 0) = some (some (line, n)) ∧
      (cstr line).bind (fun l => tokenize l (plenty 0) true) = some (some [])) := by
  refine ⟨⟨bytes "it's" ++ List.replicate 60 0, 4, ?_, ?_⟩, ⟨List.replicate 64 0, 0, ?_, ?_⟩⟩ <;>
    decide +kernel

/-- **C06**, what holds: any list of non-empty C strings, none of which contains a single
quote unless it also contains white space, survives `join` followed by `tokenize`.  Missing
from the full claim: strings with `'` but no white space, and empty strings. -/
theorem qstr_roundtrip_partial (strv : List (List Byte)) (j0 : Nat → Byte) (ja : Nat → Nat → Byte)
    (al : Nat → QAlloc) (hal : ∀ n, (al n).malloc.isSome = true ∧ (al n).realloc = true)
    (hne : ∀ t ∈ strv, t ≠ []) (hnul : ∀ t ∈ strv, (0 : Byte) ∉ t)
    (hq : ∀ t ∈ strv, ch '\'' ∈ t → hasWhite t)
    (hsz : (strv.map (fun t => t.length * 2 + 4)).sum < 2 ^ 31) :
    ∃ line n, join strv (some j0) (fun k => some (ja k)) = some (some (line, n)) ∧
      ∃ l, cstr line = some l ∧ l.length = n ∧ tokenize l al true = some (some strv) := by
  have hg : ∀ t ∈ strv, Good t := by
    intro t ht
    refine ⟨hne t ht, hnul t ht, fun hm => ?_⟩
    obtain ⟨c, hc, h⟩ := hq t ht hm
    unfold needQuote
    rw [List.any_eq_true]
    exact ⟨c, hc, by simpa [or_assoc] using h⟩
  have hll : ∀ (ts : List (List Byte)) (done : List Byte),
      (lineF done ts).length ≤ done.length + room ts := by
    intro ts
    induction ts with
    | nil => intro done; simp [lineF]
    | cons t ts ih =>
      intro done
      unfold lineF
      refine Nat.le_trans (ih _) ?_
      have := enc_len t
      have hr : room (t :: ts) = t.length * 2 + 4 + room ts := by simp [room]
      rw [hr]
      split <;> simp only [List.length_append, List.length_nil, List.length_cons] <;> omega
  have hroom : room strv < 2147483648 := hsz
  have hl := hll strv []
  simp only [List.length_nil, Nat.zero_add] at hl
  rcases join_ex strv (some j0) (fun k => some (ja k)) (by omega) with ⟨-, h⟩ | ⟨rest, e⟩
  · exfalso
    rcases h with h | ⟨k, h⟩ | h
    · simp at h
    · simp at h
    · omega
  · refine ⟨_, _, e, lineF [] strv, cstr_prefix rfl (lineF_nz strv hnul [] (by simp)), rfl, ?_⟩
    rcases tokenize_ex (lineF [] strv) al (fun n => (hal n).1) (by omega) with h | ⟨-, n, h⟩
    · rw [h, tokens_line strv hg]
    · have := (hal n).2; rw [h] at this; simp at this

example : ∃ line n, join [bytes "a b'c", bytes "x\"\\y", bytes "\tz"] (some fun _ => 7)
      (fun _ => some fun _ => 7) = some (some (line, n)) ∧
    (cstr line).bind (fun l => tokenize l (plenty 9) true) =
      some (some [bytes "a b'c", bytes "x\"\\y", bytes "\tz"]) := by
  refine ⟨bytes "\"a b'c\" x\\\"\\\\y \"\tz\"" ++ 0 :: List.replicate 44 7, 19, ?_, ?_⟩ <;> decide +kernel

/-! ## C07 -/

/-- **C07.** `join` never writes outside the block it has sized, whatever the strings and
whatever the allocator does: it either reports -ENOMEM (only for lack of memory or a result
of 2^31 bytes or more), or yields a terminated line. -/
theorem qstr_join_in_bounds (strv : List (List Byte)) (first : Option (Nat → Byte))
    (al : Nat → Option (Nat → Byte))
    (hsz : (strv.map (fun t => t.length * 2 + 4)).sum ≤ 10 ^ 18) :
    (join strv first al = some none ∧ (first = none ∨ (∃ k, al k = none) ∨
        2 ^ 31 ≤ (strv.map (fun t => t.length * 2 + 4)).sum)) ∨
    ∃ line n, join strv first al = some (some (line, n)) ∧ line[n]? = some 0 := by
  rcases join_ex strv first al hsz with ⟨h, h'⟩ | ⟨rest, e⟩
  · refine Or.inl ⟨h, ?_⟩
    rcases h' with h' | h' | h'
    · exact Or.inl h'
    · exact Or.inr (Or.inl h')
    · refine Or.inr (Or.inr ?_)
      have hll : ∀ (ts : List (List Byte)) (done : List Byte),
          (lineF done ts).length ≤ done.length + room ts := by
        intro ts
        induction ts with
        | nil => intro done; simp [lineF]
        | cons t ts ih =>
          intro done
          unfold lineF
          refine Nat.le_trans (ih _) ?_
          have := enc_len t
          have hr : room (t :: ts) = t.length * 2 + 4 + room ts := by simp [room]
          rw [hr]
          split <;> simp only [List.length_append, List.length_nil, List.length_cons] <;> omega
      have hl := hll strv []
      simp only [List.length_nil, Nat.zero_add] at hl
      exact Nat.le_trans h' hl
  · exact Or.inr ⟨_, _, e, by simp⟩

/-- **C07**, a single encoding: into any block with room for `2*length+2` bytes it writes at
most that many, at the given offset, and nothing else changes. -/
theorem qstr_encode_bounded (src done rest : List Byte) (h : 2 * src.length + 2 ≤ rest.length) :
    ∃ e : List Byte, e.length ≤ 2 * src.length + 2 ∧
      encode (done ++ rest) done.length src (needQuote src) =
        some (done ++ e ++ rest.drop e.length, done.length + e.length) :=
  ⟨enc src, enc_len src, encode_ex src done rest (Nat.le_trans (enc_len src) h)⟩

example : join [bytes "a b", []] (some fun _ => 7) (fun k => if k = 0 then none else some fun _ => 7)
    = some (some (bytes "\"a b\" " ++ 0 :: List.replicate 57 7, 6)) := by decide +kernel
example : join [bytes "a b", List.replicate 80 (ch 'x')] (some fun _ => 7)
    (fun k => if k = 0 then none else some fun _ => 7) = some none := by decide +kernel

/-! ## C08 -/

/-- **C08.** With memory available the tokenizer is total on arbitrary bytes, touches no
byte outside its blocks, and returns exactly the words of the quoted-string language. -/
theorem qstr_tokenize_exact (str : List Byte) (al : Nat → QAlloc)
    (hal : ∀ n, (al n).malloc.isSome = true ∧ (al n).realloc = true)
    (hlen : str.length ≤ 10 ^ 18) :
    tokenize str al true = some (some (Spec.tokens str)) := by
  rcases tokenize_ex str al (fun n => (hal n).1) hlen with h | ⟨-, n, h⟩
  · exact h
  · have := (hal n).2; rw [h] at this; simp at this

/-- **C08**, as observed: no token contains a NUL, and together they are no longer than the
input. -/
theorem qstr_tokens_bounded (str : List Byte) (al : Nat → QAlloc)
    (hal : ∀ n, (al n).malloc.isSome = true ∧ (al n).realloc = true)
    (hlen : str.length ≤ 10 ^ 18) :
    ∃ toks, tokenize str al true = some (some toks) ∧ (∀ t ∈ toks, (0 : Byte) ∉ t) ∧
      toks.flatten.length ≤ str.length := by
  refine ⟨_, qstr_tokenize_exact str al hal hlen, ?_, tokens_len str⟩
  intro t ht
  unfold Spec.tokens at ht
  rw [List.mem_map] at ht
  obtain ⟨w, -, rfl⟩ := ht
  exact value_nz _ _

/-- **C08**, the in-place decoder: on every block of `len + 1` bytes it stays inside and
leaves a terminated string, the value of the word. -/
theorem qstr_decode_in_place (raw : List Byte) (last : Byte) :
    ∃ b, decode (raw ++ [last]) raw.length = some b ∧ b.length = raw.length + 1 ∧
      cstr b = some (Spec.value none raw) :=
  decode_ex raw last

example : tokenize (bytes "  a\\ b 'c d'\"e\\n\" \\q \"\" f\\") (plenty 3) true =
    some (some [bytes "a\\ b", bytes "c de\n", bytes "\\q", [], bytes "f\\"]) := by decide +kernel

/-! ## C65 -/

/-- **C65** (violated) for the tokenizer: a failing allocation of a token is dereferenced. -/
theorem qstr_oom_refuted :
    ∃ (str : List Byte) (al : Nat → QAlloc), tokenize str al true = none :=
  ⟨bytes "a b", fun _ => ⟨true, none⟩, by decide +kernel⟩

/-- **C65**, what holds for the tokenizer: failures of the vector allocations are reported.
Missing: failure of the allocation of a token. -/
theorem qstr_oom_partial (str : List Byte) (al : Nat → QAlloc)
    (hal : ∀ n, (al n).malloc.isSome = true) (hlen : str.length ≤ 10 ^ 18) :
    tokenize str al false = some none ∧
    (tokenize str al true = some (some (Spec.tokens str)) ∨
      (tokenize str al true = some none ∧ ∃ n, (al n).realloc = false)) :=
  ⟨by simp [tokenize], tokenize_ex str al hal hlen⟩

example : tokenize (bytes "a b c d e f g h") (fun n => ⟨n < 7, some fun _ => 0⟩) true = some none := by
  decide +kernel

end Verif.Qstr
