import Verif.Model.Ratelimit
import Verif.Spec.Ratelimit
/-! Helper lemmas for the rate limiter. -/
namespace Verif.Ratelimit
open Verif.C

theorem run_cons (r : RL) (t : Nat) (ts : List Nat) :
    run r (t :: ts) = (t, (test r t).2) :: run (test r t).1 ts := rfl

theorem test_open {r : RL} {t : Nat} (hi : 0 < r.interval) (hb : 0 < r.burst)
    (hw : r.begin_ + r.interval < W64) (h : r.begin_ = 0 ∨ r.begin_ + r.interval < t) :
    test r t = (⟨r.interval, t, r.burst, 1⟩, true) := by
  unfold test
  rw [if_neg (by omega), Nat.mod_eq_of_lt hw, if_pos h]

theorem test_admit {r : RL} {t : Nat} (hi : 0 < r.interval) (hb : 0 < r.burst) (hB : r.burst < W32)
    (hw : r.begin_ + r.interval < W64) (h0 : 0 < r.begin_) (h : t ≤ r.begin_ + r.interval)
    (hn : r.num < r.burst) :
    test r t = (⟨r.interval, r.begin_, r.burst, r.num + 1⟩, true) := by
  unfold test
  rw [if_neg (by omega), Nat.mod_eq_of_lt hw, if_neg (by omega), if_pos hn,
    Nat.mod_eq_of_lt (by omega)]

theorem test_deny {r : RL} {t : Nat} (hi : 0 < r.interval) (hb : 0 < r.burst)
    (hw : r.begin_ + r.interval < W64) (h0 : 0 < r.begin_) (h : t ≤ r.begin_ + r.interval)
    (hn : ¬ r.num < r.burst) :
    test r t = (r, false) := by
  unfold test
  rw [if_neg (by omega), Nat.mod_eq_of_lt hw, if_neg (by omega), if_neg hn]

/-- The run from inside a window. -/
theorem run_window (I B : Nat) (hI : 0 < I) (hB0 : 0 < B) (hB : B < W32) (ts : List Nat) :
    ∀ (b n k : Nat), 0 < b → b + I < W64 → (∀ t ∈ ts, 0 < t ∧ t + I < W64) →
      n = min k B →
    (run ⟨I, b, B, n⟩ ts).map (·.2) =
      (List.range' k (ts.takeWhile (· ≤ b + I)).length).map (fun i => decide (i < B)) ++
        Spec.answers I B (ts.dropWhile (· ≤ b + I)) := by
  induction ts with
  | nil => intros; simp [run, Spec.answers]
  | cons t ts ih =>
    intro b n k hb hw hts hn
    have ht := hts t (by simp)
    have hts' : ∀ t ∈ ts, 0 < t ∧ t + I < W64 := fun x hx => hts x (by simp [hx])
    rw [run_cons]
    by_cases h : t ≤ b + I
    · rw [List.takeWhile_cons_of_pos (by simpa using h), List.dropWhile_cons_of_pos (by simpa using h)]
      simp only [List.length_cons, List.range'_succ, List.map_cons, List.cons_append]
      by_cases hnB : n < B
      · rw [test_admit (r := ⟨I, b, B, n⟩) hI hB0 hB hw hb h hnB]
        have := ih b (n + 1) (k + 1) hb hw hts' (by omega)
        simp only [this]
        congr 1
        have : k < B := by omega
        simp [this]
      · rw [test_deny (r := ⟨I, b, B, n⟩) hI hB0 hw hb h hnB]
        have := ih b n (k + 1) hb hw hts' (by omega)
        simp only [this]
        congr 1
        have : ¬ k < B := by omega
        simp [this]
    · rw [List.takeWhile_cons_of_neg (by simpa using h), List.dropWhile_cons_of_neg (by simpa using h)]
      rw [test_open (r := ⟨I, b, B, n⟩) hI hB0 hw (Or.inr (by simp only; omega))]
      simp only [List.length_nil, List.range'_zero, List.map_nil, List.nil_append, List.map_cons]
      rw [ih t 1 1 ht.1 ht.2 hts' (by omega)]
      rw [Spec.answers]
      simp only [List.length_cons, List.range_eq_range', List.range'_succ, List.map_cons, List.cons_append,
        Nat.zero_add]
      congr 1
      simp [hB0]

/-- How many calls with a time in `[a, b]` were admitted. -/
def admitted (l : List (Nat × Bool)) (a b : Nat) : Nat :=
  (l.filter (fun p => p.2 && decide (a ≤ p.1) && decide (p.1 ≤ b))).length

theorem admitted_cons (t : Nat) (b : Bool) (l : List (Nat × Bool)) (x y : Nat) :
    admitted ((t, b) :: l) x y =
      (if b = true ∧ x ≤ t ∧ t ≤ y then 1 else 0) + admitted l x y := by
  unfold admitted
  rw [List.filter_cons]
  by_cases h : b = true ∧ x ≤ t ∧ t ≤ y
  · simp [h]; omega
  · rw [if_neg h]
    rw [if_neg (by simpa [and_assoc] using h)]
    omega

theorem admitted_late (T y : Nat) (l : List Nat) : ∀ (r : RL), (∀ x ∈ l, y < x) →
    admitted (run r l) T y = 0 := by
  induction l with
  | nil => intros; rfl
  | cons a l ih =>
    intro r h
    rw [run_cons, admitted_cons, ih _ (fun x hx => h x (by simp [hx]))]
    have := h a (by simp)
    rw [if_neg (by omega)]

/-- what can still be admitted in `[T, T+I]` -/
def bound (r : RL) (T : Nat) : Nat :=
  if r.begin_ = 0 ∨ r.begin_ + r.interval < T then 2 * r.burst
  else if r.begin_ < T then 2 * r.burst - r.num else r.burst - r.num

theorem admitted_bound (I B T : Nat) (hI : 0 < I) (hB0 : 0 < B) (hB : B < W32) (ts : List Nat) :
    ∀ (b n : Nat), n ≤ B → b + I < W64 → (∀ t ∈ ts, b ≤ t ∧ 0 < t ∧ t + I < W64) →
      ts.Pairwise (· ≤ ·) →
      admitted (run ⟨I, b, B, n⟩ ts) T (T + I) ≤ bound ⟨I, b, B, n⟩ T := by
  induction ts with
  | nil => intros; simp [admitted, run]
  | cons t ts ih =>
    intro b n hn hw hts hp
    have ht := hts t (by simp)
    rw [List.pairwise_cons] at hp
    rw [run_cons, admitted_cons]
    have hlate : T + I < t → ∀ r, admitted (run r ts) T (T + I) = 0 := fun h r =>
      admitted_late T (T + I) ts r (fun x hx => by have := hp.1 x hx; omega)
    by_cases ho : b = 0 ∨ b + I < t
    · rw [test_open (r := ⟨I, b, B, n⟩) hI hB0 hw ho]
      simp only
      have key := ih t 1 (by omega) ht.2.2 (fun x hx => by
        have := hp.1 x hx; have := hts x (by simp [hx]); omega) hp.2
      unfold bound at key ⊢
      simp only at key ⊢
      by_cases h1 : T + I < t
      · rw [hlate h1, if_neg (by omega)]; omega
      · by_cases h2 : T ≤ t
        · rw [if_pos ⟨trivial, h2, by omega⟩]
          rw [if_neg (by omega), if_neg (by omega)] at key
          split
          · omega
          · split <;> omega
        · rw [if_neg (by omega)]
          rw [if_pos (c := b = 0 ∨ b + I < T) (by omega)]
          split at key
          · omega
          · split at key <;> omega
    · have hb0 : 0 < b := by omega
      by_cases hnB : n < B
      · rw [test_admit (r := ⟨I, b, B, n⟩) hI hB0 hB hw hb0 (by simp only; omega) hnB]
        simp only
        have key := ih b (n + 1) (by omega) hw (fun x hx => hts x (by simp [hx])) hp.2
        unfold bound at key ⊢
        simp only at key ⊢
        by_cases h1 : b = 0 ∨ b + I < T
        · rw [if_pos h1] at key ⊢
          rw [if_neg (by omega)]; omega
        · rw [if_neg h1] at key ⊢
          split at key <;> split <;> omega
      · rw [test_deny (r := ⟨I, b, B, n⟩) hI hB0 hw hb0 (by simp only; omega) hnB]
        simp only
        have key := ih b n hn hw (fun x hx => hts x (by simp [hx])) hp.2
        rw [if_neg (by simp)]
        omega

/-- the state after a history -/
def after (r : RL) : List Nat → RL
  | [] => r
  | t :: ts => after (test r t).1 ts

theorem run_append (ts us : List Nat) : ∀ r, run r (ts ++ us) = run r ts ++ run (after r ts) us := by
  induction ts with
  | nil => intro r; rfl
  | cons t ts ih => intro r; simp only [List.cons_append, run_cons, after, ih]

theorem admitted_append (l m : List (Nat × Bool)) (x y : Nat) :
    admitted (l ++ m) x y = admitted l x y + admitted m x y := by
  simp [admitted]

theorem after_append (ts us : List Nat) : ∀ r, after r (ts ++ us) = after (after r ts) us := by
  induction ts with
  | nil => intro r; rfl
  | cons t ts ih => intro r; simp only [List.cons_append, after, ih]

/-- The state records the admitted calls since the window began. -/
theorem after_inv (I B : Nat) (hI : 0 < I) (hI' : I < W64) (hB0 : 0 < B) (hB : B < W32) (ts : List Nat) :
    (∀ t ∈ ts, 0 < t ∧ t + I < W64) → ts.Pairwise (· ≤ ·) →
    ∃ b n, after (init I B) ts = ⟨I, b, B, n⟩ ∧ n ≤ B ∧ b + I < W64 ∧
      (b = 0 ∧ ts = [] ∨ b ∈ ts) ∧
      (∀ now, (∀ t ∈ ts, t ≤ now) → n ≤ admitted (run (init I B) ts) b now) := by
  induction ts using snocInd with
  | nil =>
    intro _ _
    exact ⟨0, 0, rfl, by omega, by omega, Or.inl ⟨rfl, rfl⟩, by intros; omega⟩
  | snoc ts t ih =>
    intro hts hp
    rw [List.pairwise_append] at hp
    obtain ⟨b, n, e, hn, hw, hb, hadm⟩ := ih (fun x hx => hts x (by simp [hx])) hp.1
    have ht := hts t (by simp)
    have hlast : ∀ x ∈ ts, x ≤ t := fun x hx => hp.2.2 x hx t (by simp)
    have hbt : b ≤ t := by
      rcases hb with ⟨h, -⟩ | h
      · omega
      · exact hlast b h
    simp only [after_append, run_append, admitted_append, e, after, run_cons, admitted_cons, run]
    by_cases ho : b = 0 ∨ b + I < t
    · rw [test_open (r := ⟨I, b, B, n⟩) hI hB0 hw ho]
      refine ⟨t, 1, rfl, by omega, ht.2, Or.inr (by simp), ?_⟩
      intro now hnow
      have := hnow t (by simp)
      rw [if_pos (by simpa using this)]
      omega
    · have hb0 : 0 < b := by omega
      have hbm : b = 0 ∧ ts ++ [t] = [] ∨ b ∈ ts ++ [t] := by
        rcases hb with ⟨h, -⟩ | h
        · omega
        · exact Or.inr (by simp [h])
      by_cases hnB : n < B
      · rw [test_admit (r := ⟨I, b, B, n⟩) hI hB0 hB hw hb0 (by simp only; omega) hnB]
        refine ⟨b, n + 1, rfl, by omega, hw, hbm, ?_⟩
        intro now hnow
        have := hnow t (by simp)
        have := hadm now (fun x hx => hnow x (by simp [hx]))
        rw [if_pos ⟨rfl, by omega, by assumption⟩]
        omega
      · rw [test_deny (r := ⟨I, b, B, n⟩) hI hB0 hw hb0 (by simp only; omega) hnB]
        refine ⟨b, n, rfl, hn, hw, hbm, ?_⟩
        intro now hnow
        have := hadm now (fun x hx => hnow x (by simp [hx]))
        omega

end Verif.Ratelimit
