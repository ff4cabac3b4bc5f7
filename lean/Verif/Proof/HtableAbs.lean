import Verif.Spec.Htable
import Mathlib.Tactic.Tauto
import Mathlib.Data.Nat.Find
/-! Abstract open-addressing tables: slots instead of encoded words. -/
namespace Verif.Htable

inductive Slot where
  | empty
  | del
  | ent (p : W)
deriving DecidableEq

def Slot.ptr : Slot → Option W
  | .ent p => some p
  | _ => none

def Slot.isEnt (s : Slot) : Bool := s.ptr.isSome

abbrev ATab := Nat → Slot

def upd (A : ATab) (k : Nat) (s : Slot) : ATab := fun q => if q = k then s else A q

def contents (A : ATab) (n : Nat) : List W := (List.range n).filterMap fun k => (A k).ptr

def used (A : ATab) (n : Nat) : Nat := (List.range n).countP fun k => decide (A k ≠ .empty)

theorem contents_succ (A : ATab) (n : Nat) : contents A (n + 1) = contents A n ++ (A n).ptr.toList := by
  unfold contents
  rw [List.range_succ, List.filterMap_append]
  congr 1

theorem contents_congr {A B : ATab} {n : Nat} (h : ∀ k < n, A k = B k) : contents A n = contents B n := by
  induction n with
  | zero => rfl
  | succ n ih =>
    rw [contents_succ, contents_succ, ih (fun k hk => h k (by omega)), h n (by omega)]

theorem contents_set {A : ATab} {n k : Nat} (hk : k < n) (hs : (A k).ptr = none) (p : W) :
    (contents (upd A k (.ent p)) n).Perm (p :: contents A n) := by
  induction n with
  | zero => omega
  | succ n ih =>
    rw [contents_succ, contents_succ]
    by_cases hkn : k = n
    · subst hkn
      rw [contents_congr (B := A) (fun q hq => by simp [upd, show q ≠ k by omega])]
      have : (upd A k (Slot.ent p) k).ptr = some p := by simp [upd, Slot.ptr]
      rw [this, hs]
      simp
    · have h1 := ih (by omega)
      have : upd A k (Slot.ent p) n = A n := by simp [upd, Ne.symm hkn]
      rw [this]
      exact (h1.append_right _)

theorem contents_clear {A : ATab} {n k : Nat} (hk : k < n) {p : W} (hs : A k = .ent p) (s : Slot)
    (hsn : s.ptr = none) : (contents A n).Perm (p :: contents (upd A k s) n) := by
  have h := contents_set (A := upd A k s) hk (by simp [upd, hsn]) p
  have : upd (upd A k s) k (.ent p) = A := by
    funext q
    unfold upd
    by_cases hq : q = k
    · simp [hq, hs]
    · simp [hq]
  rwa [this] at h

theorem contents_same {A : ATab} {n k : Nat} {s : Slot} (h1 : (A k).ptr = none) (h2 : s.ptr = none) :
    contents (upd A k s) n = contents A n := by
  induction n with
  | zero => rfl
  | succ n ih =>
    rw [contents_succ, contents_succ, ih]
    congr 1
    by_cases h : n = k
    · subst h; simp [upd, h1, h2]
    · simp [upd, h]

theorem used_succ (A : ATab) (n : Nat) : used A (n + 1) = used A n + (if A n = .empty then 0 else 1) := by
  unfold used
  rw [List.range_succ, List.countP_append]
  congr 1
  by_cases h : A n = .empty <;> simp [h]

theorem used_le (A : ATab) (n : Nat) : used A n ≤ n := by
  induction n with
  | zero => simp [used]
  | succ n ih => rw [used_succ]; split <;> omega

theorem contents_le_used (A : ATab) (n : Nat) : (contents A n).length ≤ used A n := by
  induction n with
  | zero => simp [contents]
  | succ n ih =>
    rw [used_succ, contents_succ, List.length_append]
    cases h : A n with
    | empty => simp [Slot.ptr]; omega
    | del => simp [Slot.ptr]; omega
    | ent p => simp [Slot.ptr]; omega

theorem used_eq_contents {A : ATab} {n : Nat} (h : ∀ k < n, A k ≠ .del) :
    used A n = (contents A n).length := by
  induction n with
  | zero => simp [used, contents]
  | succ n ih =>
    have := h n (by omega)
    rw [used_succ, contents_succ, List.length_append, ih (fun k hk => h k (by omega))]
    cases h : A n with
    | empty => simp [Slot.ptr]
    | del => exact absurd h this
    | ent p => simp [Slot.ptr]

theorem used_upd_le (A : ATab) (n k : Nat) (s : Slot) : used (upd A k s) n ≤ used A n + 1 := by
  by_cases hk : k < n
  · induction n with
    | zero => omega
    | succ n ih =>
      rw [used_succ, used_succ]
      by_cases hkn : k = n
      · subst hkn
        have : used (upd A k s) k = used A k := by
          unfold used
          apply List.countP_congr
          intro q hq
          rw [List.mem_range] at hq
          simp [upd, show q ≠ k by omega]
        rw [this]
        split <;> split <;> omega
      · have := ih (by omega)
        have e : upd A k s n = A n := by simp [upd, Ne.symm hkn]
        rw [e]; omega
  · have : used (upd A k s) n = used A n := by
      unfold used
      apply List.countP_congr
      intro q hq
      rw [List.mem_range] at hq
      simp [upd, show q ≠ k by omega]
    omega

theorem used_upd_nonempty {A : ATab} {n k : Nat} {s : Slot} (h1 : A k ≠ .empty) (h2 : s ≠ .empty) :
    used (upd A k s) n = used A n := by
  unfold used
  apply List.countP_congr
  intro q _
  by_cases h : q = k
  · subst h; simp [upd, h1, h2]
  · simp [upd, h]

theorem exists_empty {A : ATab} {n : Nat} (h : used A n < n) : ∃ k < n, A k = .empty := by
  induction n with
  | zero => omega
  | succ n ih =>
    rw [used_succ] at h
    by_cases he : A n = .empty
    · exact ⟨n, by omega, he⟩
    · rw [if_neg he] at h
      obtain ⟨k, hk, e⟩ := ih (by omega)
      exact ⟨k, by omega, e⟩

theorem mem_contents {A : ATab} {n : Nat} {p : W} : p ∈ contents A n ↔ ∃ k < n, A k = .ent p := by
  unfold contents
  rw [List.mem_filterMap]
  constructor
  · rintro ⟨k, hk, e⟩
    refine ⟨k, List.mem_range.1 hk, ?_⟩
    cases h : A k <;> simp [h, Slot.ptr] at e
    rw [e]
  · rintro ⟨k, hk, e⟩
    exact ⟨k, List.mem_range.2 hk, by simp [e, Slot.ptr]⟩

/-- entry at `k` is reachable by probing from `b` -/
def Path (A : ATab) (n b k : Nat) : Prop := ∃ j < n, k = (b + j) % n ∧ ∀ i < j, A ((b + i) % n) ≠ .empty

theorem Path.mono {A B : ATab} {n b k : Nat} (h : Path A n b k)
    (hm : ∀ q, A q ≠ .empty → B q ≠ .empty) : Path B n b k := by
  obtain ⟨j, hj, e, hp⟩ := h
  exact ⟨j, hj, e, fun i hi => hm _ (hp i hi)⟩

def PInv (A : ATab) (n : Nat) (home : W → Nat) : Prop := ∀ k < n, ∀ p, A k = .ent p → Path A n (home p) k

theorem upd_nonempty {A : ATab} {k : Nat} {s : Slot} (h : s ≠ .empty) :
    ∀ q, A q ≠ .empty → upd A k s q ≠ .empty := by
  intro q hq
  unfold upd
  split
  · exact h
  · exact hq

theorem PInv.add {A : ATab} {n : Nat} {home : W → Nat} (h : PInv A n home) {p : W} {j : Nat} (hj : j < n)
    (hp : ∀ i < j, A ((home p + i) % n) ≠ .empty) :
    PInv (upd A ((home p + j) % n) (.ent p)) n home := by
  intro k hk q hq
  by_cases hkj : k = (home p + j) % n
  · have : q = p := by simp [upd, hkj] at hq; exact hq.symm
    subst this
    exact Path.mono ⟨j, hj, hkj, hp⟩ (upd_nonempty (by simp))
  · rw [upd, if_neg hkj] at hq
    exact (h k hk q hq).mono (upd_nonempty (by simp))

theorem PInv.del {A : ATab} {n : Nat} {home : W → Nat} (h : PInv A n home) {k : Nat} :
    PInv (upd A k .del) n home := by
  intro q hq p hp
  by_cases hqk : q = k
  · simp [upd, hqk] at hp
  · rw [upd, if_neg hqk] at hp
    exact (h q hq p hp).mono (upd_nonempty (by simp))

/-- first position from `b` on with a property, given that some slot has it -/
theorem first_from {P : Nat → Prop} [DecidablePred P] {n b : Nat} (hn : 0 < n) (h : ∃ k < n, P k) :
    ∃ j < n, P ((b + j) % n) ∧ ∀ i < j, ¬ P ((b + i) % n) := by
  obtain ⟨k, hk, hp⟩ := h
  have h1 : ∃ j, j < n ∧ P ((b + j) % n) := by
    refine ⟨(k + (n - b % n)) % n, Nat.mod_lt _ hn, ?_⟩
    have hb := Nat.mod_lt b hn
    have : (b + (k + (n - b % n)) % n) % n = k := by
      rw [Nat.add_mod, Nat.mod_mod, ← Nat.add_mod]
      have e : b + (k + (n - b % n)) = k + n * (b / n + 1) := by
        have := Nat.div_add_mod b n
        rw [Nat.mul_add]
        omega
      rw [e, Nat.add_mul_mod_self_left, Nat.mod_eq_of_lt hk]
    rw [this]; exact hp
  have h2 := Nat.find_spec h1
  refine ⟨Nat.find h1, h2.1, h2.2, ?_⟩
  intro i hi hpi
  exact Nat.find_min h1 hi ⟨by omega, hpi⟩

/-- `i` slots after slot `s` -/
theorem add_mod_inj {n s i j : Nat} (hi : i < n) (hj : j < n) (h : (s + i) % n = (s + j) % n) : i = j := by
  have hn : 0 < n := by omega
  have h1 := Nat.div_add_mod (s + i) n
  have h2 := Nat.div_add_mod (s + j) n
  rw [h] at h1
  rcases Nat.lt_trichotomy ((s + i) / n) ((s + j) / n) with hl | he | hl
  · have := Nat.mul_le_mul_left n (show (s + i) / n + 1 ≤ (s + j) / n from hl)
    rw [Nat.mul_add] at this; omega
  · rw [he] at h1; omega
  · have := Nat.mul_le_mul_left n (show (s + j) / n + 1 ≤ (s + i) / n from hl)
    rw [Nat.mul_add] at this; omega

theorem slot_pos {n s k : Nat} (hk : k < n) : ∃ i < n, k = (s + i) % n := by
  obtain ⟨j, hj, e, _⟩ := first_from (P := fun q => q = k) (b := s) (by omega : 0 < n) ⟨k, hk, rfl⟩
  exact ⟨j, hj, e.symm⟩

/-- loop invariant of `rehash_table` with the positions below `i` done -/
structure RInv (A : ATab) (n s i : Nat) (home : W → Nat) : Prop where
  nodel : ∀ i' < i, A ((s + i') % n) ≠ .del
  done : ∀ i' < i, ∀ p, A ((s + i') % n) = .ent p →
    ∃ hp ≤ i', home p = (s + hp) % n ∧ ∀ j, hp ≤ j → j < i' → A ((s + j) % n) ≠ .empty
  todo : ∀ i' < n, i ≤ i' → ∀ p, A ((s + i') % n) = .ent p → ∃ hp ≤ i', home p = (s + hp) % n

theorem RInv.start {A : ATab} {n s : Nat} {home : W → Nat} (h : PInv A n home) (hs : s < n)
    (he : A s = .empty) (hhome : ∀ p, home p < n) : RInv A n s 0 home := by
  have hn : 0 < n := by omega
  refine ⟨fun _ h => by omega, fun _ h => by omega, ?_⟩
  intro i' hi' _ p hp
  obtain ⟨j, hj, e, hpath⟩ := h _ (Nat.mod_lt _ hn) p hp
  obtain ⟨hp', hlt, ehp⟩ := slot_pos (s := s) (hhome p)
  refine ⟨hp', ?_, ehp⟩
  apply Classical.byContradiction
  intro hgt
  -- the path from hp' wraps around through s
  have hd : n - hp' < j ∨ n - hp' = j ∨ j < n - hp' := by omega
  have hwrap : (home p + (n - hp')) % n = s := by
    rw [ehp, Nat.mod_add_mod, show s + hp' + (n - hp') = s + n by omega, Nat.add_mod_right,
      Nat.mod_eq_of_lt hs]
  have key : (home p + j) % n = (s + (hp' + j) % n) % n := by
    rw [ehp, Nat.mod_add_mod, Nat.add_mod_mod, Nat.add_assoc]
  rcases hd with hd | hd | hd
  · exact hpath _ hd (by rw [hwrap]; exact he)
  · rw [← hd, hwrap] at e
    rw [e, he] at hp
    simp at hp
  · rw [key] at e
    have := add_mod_inj hi' (Nat.mod_lt _ hn) e
    rw [Nat.mod_eq_of_lt (by omega)] at this
    omega

theorem RInv.finish {A : ATab} {n s : Nat} {home : W → Nat} (h : RInv A n s n home) (hn : 0 < n) :
    PInv A n home ∧ ∀ k < n, A k ≠ .del := by
  constructor
  · intro k hk p hp
    obtain ⟨i, hi, rfl⟩ := slot_pos (s := s) hk
    obtain ⟨hp', hle, eh, hpath⟩ := h.done i hi p hp
    refine ⟨i - hp', by omega, ?_, ?_⟩
    · rw [eh, Nat.mod_add_mod]; congr 1; omega
    · intro q hq
      rw [eh, Nat.mod_add_mod, Nat.add_assoc]
      exact hpath _ (by omega) (by omega)
  · intro k hk
    obtain ⟨i, hi, rfl⟩ := slot_pos (s := s) hk
    exact h.nodel i hi

/-- slot `i` needs no work -/
theorem RInv.skip {A : ATab} {n s i : Nat} {home : W → Nat} (h : RInv A n s i home)
    (hd : A ((s + i) % n) ≠ .del)
    (hp : ∀ p, A ((s + i) % n) = .ent p → home p = (s + i) % n) : RInv A n s (i + 1) home := by
  refine ⟨?_, ?_, fun i' h1 h2 p hp => h.todo i' h1 (by omega) p hp⟩
  · intro i' hi'
    rcases Nat.lt_succ_iff_lt_or_eq.1 hi' with hl | rfl
    · exact h.nodel i' hl
    · exact hd
  · intro i' hi' p hpp
    rcases Nat.lt_succ_iff_lt_or_eq.1 hi' with hl | rfl
    · exact h.done i' hl p hpp
    · exact ⟨i', Nat.le_refl _, hp p hpp, fun j h1 h2 => by omega⟩

/-- slot `i` is cleared -/
theorem RInv.clear {A : ATab} {n s i : Nat} {home : W → Nat} (h : RInv A n s i home) (hin : i < n) :
    RInv (upd A ((s + i) % n) .empty) n s (i + 1) home := by
  have hne : ∀ i' < n, i' ≠ i → upd A ((s + i) % n) .empty ((s + i') % n) = A ((s + i') % n) := by
    intro i' hi' hne
    unfold upd
    rw [if_neg]
    intro e
    exact hne (add_mod_inj hi' hin e)
  have hself : upd A ((s + i) % n) .empty ((s + i) % n) = .empty := by simp [upd]
  refine ⟨?_, ?_, ?_⟩
  · intro i' hi'
    rcases Nat.lt_succ_iff_lt_or_eq.1 hi' with hl | rfl
    · rw [hne i' (by omega) (by omega)]; exact h.nodel i' hl
    · rw [hself]; simp
  · intro i' hi' p hpp
    rcases Nat.lt_succ_iff_lt_or_eq.1 hi' with hl | rfl
    · rw [hne i' (by omega) (by omega)] at hpp
      obtain ⟨hp, h1, h2, h3⟩ := h.done i' hl p hpp
      refine ⟨hp, h1, h2, fun j hj1 hj2 => ?_⟩
      rw [hne j (by omega) (by omega)]
      exact h3 j hj1 hj2
    · rw [hself] at hpp; simp at hpp
  · intro i' h1 h2 p hpp
    rw [hne i' h1 (by omega)] at hpp
    exact h.todo i' h1 (by omega) p hpp

/-- an entry whose home is at position `hp ≤ i` is added again -/
theorem RInv.add {A : ATab} {n s i : Nat} {home : W → Nat} (h : RInv A n s (i + 1) home) (hin : i < n)
    {p : W} {hp : Nat} (hle : hp ≤ i) (hh : home p = (s + hp) % n) {j : Nat} (hj : hp + j ≤ i)
    (hpath : ∀ q < j, A ((home p + q) % n) ≠ .empty) :
    RInv (upd A ((home p + j) % n) (.ent p)) n s (i + 1) home := by
  have he : (home p + j) % n = (s + (hp + j)) % n := by rw [hh, Nat.mod_add_mod, Nat.add_assoc]
  rw [he]
  have hne : ∀ i' < n, i' ≠ hp + j → upd A ((s + (hp + j)) % n) (.ent p) ((s + i') % n) = A ((s + i') % n) := by
    intro i' hi' hne
    unfold upd
    rw [if_neg]
    intro e
    exact hne (add_mod_inj hi' (by omega) e)
  have hself : upd A ((s + (hp + j)) % n) (.ent p) ((s + (hp + j)) % n) = .ent p := by simp [upd]
  refine ⟨?_, ?_, ?_⟩
  · intro i' hi'
    by_cases hx : i' = hp + j
    · rw [hx, hself]; simp
    · rw [hne i' (by omega) hx]; exact h.nodel i' hi'
  · intro i' hi' q hq
    by_cases hx : i' = hp + j
    · subst hx
      rw [hself] at hq
      obtain rfl : p = q := by simpa using hq
      refine ⟨hp, by omega, hh, ?_⟩
      intro r h1 h2
      apply upd_nonempty (by simp)
      have := hpath (r - hp) (by omega)
      rw [hh, Nat.mod_add_mod, Nat.add_assoc, show hp + (r - hp) = r by omega] at this
      exact this
    · rw [hne i' (by omega) hx] at hq
      obtain ⟨a, h1, h2, h3⟩ := h.done i' hi' q hq
      exact ⟨a, h1, h2, fun r hr1 hr2 => upd_nonempty (by simp) _ (h3 r hr1 hr2)⟩
  · intro i' h1 h2 q hq
    rw [hne i' h1 (by omega)] at hq
    exact h.todo i' h1 h2 q hq

end Verif.Htable
