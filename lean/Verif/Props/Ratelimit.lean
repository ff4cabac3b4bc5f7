import Verif.Proof.Ratelimit
/-! # C13 – the rate limiter

A history is the list of times at which the limiter was asked; `run` pairs each time with
the answer.  Time zero means "never" to the code, and `begin + interval` is a 64-bit sum,
hence the two side conditions on times (the clock is microseconds of uptime). -/
namespace Verif.Ratelimit
open Verif.C

/-- Times at which the clock has started and is far from wrapping. -/
def Sane (interval : Nat) (ts : List Nat) : Prop := ∀ t ∈ ts, 0 < t ∧ t + interval < W64

/-- **C13.** For every history the answers are those of the ideal fixed-window limiter: in
each window the first `burst` calls are admitted and all others denied; the first call
later than `interval` after the window began opens a new one. -/
theorem ratelimit_is_fixed_window (interval burst : Nat) (ts : List Nat)
    (hI : 0 < interval) (hB0 : 0 < burst) (hB : burst < W32) (hts : Sane interval ts) :
    (run (init interval burst) ts).map (·.2) = Spec.answers interval burst ts := by
  cases ts with
  | nil => simp [run, Spec.answers]
  | cons t ts =>
    have ht := hts t (by simp)
    rw [run_cons, test_open (r := init interval burst) hI hB0 (by simp only [init]; omega) (Or.inl rfl)]
    simp only [List.map_cons, init]
    rw [run_window interval burst hI hB0 hB ts t 1 1 ht.1 ht.2 (fun x hx => hts x (by simp [hx])) (by omega)]
    rw [Spec.answers]
    simp only [List.length_cons, List.range_eq_range', List.range'_succ, List.map_cons, List.cons_append,
      Nat.zero_add]
    congr 1
    simp [hB0]

/-- **C13**, for observers who do not know the windows: with a monotone clock, no stretch of
time as long as the interval sees more than twice `burst` admitted calls. -/
theorem ratelimit_at_most (interval burst T : Nat) (ts : List Nat)
    (hI : 0 < interval) (hI' : interval < W64) (hB0 : 0 < burst) (hB : burst < W32)
    (hts : Sane interval ts) (hmono : ts.Pairwise (· ≤ ·)) :
    admitted (run (init interval burst) ts) T (T + interval) ≤ 2 * burst := by
  have := admitted_bound interval burst T hI hB0 hB ts 0 0 (by omega) (by omega)
    (fun t ht => by have := hts t ht; omega) hmono
  simpa [bound, init] using this

/-- **C13**, no spurious denial: with a monotone clock, a call is denied only if at least
`burst` calls were admitted during the `interval` before it. -/
theorem ratelimit_denies_only_bursts (interval burst t : Nat) (ts : List Nat)
    (hI : 0 < interval) (hI' : interval < W64) (hB0 : 0 < burst) (hB : burst < W32)
    (hts : Sane interval (ts ++ [t])) (hmono : (ts ++ [t]).Pairwise (· ≤ ·))
    (hdeny : (run (init interval burst) (ts ++ [t])).getLast? = some (t, false)) :
    burst ≤ admitted (run (init interval burst) ts) (t - interval) t := by
  rw [List.pairwise_append] at hmono
  obtain ⟨b, n, e, hn, hw, hb, hadm⟩ := after_inv interval burst hI hI' hB0 hB ts
    (fun x hx => hts x (by simp [hx])) hmono.1
  have hlast : ∀ x ∈ ts, x ≤ t := fun x hx => hmono.2.2 x hx t (by simp)
  rw [run_append, e, run_cons] at hdeny
  simp only [run, List.getLast?_append, List.getLast?_singleton, Option.some_or, Option.some.injEq,
    Prod.mk.injEq, true_and] at hdeny
  have key : ¬ (b = 0 ∨ b + interval < t) ∧ ¬ n < burst := by
    by_cases ho : b = 0 ∨ b + interval < t
    · rw [test_open (r := ⟨interval, b, burst, n⟩) hI hB0 hw ho] at hdeny; simp at hdeny
    · by_cases hnB : n < burst
      · rw [test_admit (r := ⟨interval, b, burst, n⟩) hI hB0 hB hw (by simp only; omega)
          (by simp only; omega) hnB] at hdeny
        simp at hdeny
      · exact ⟨ho, hnB⟩
  have h1 := hadm t hlast
  have h2 : admitted (run (init interval burst) ts) b t ≤
      admitted (run (init interval burst) ts) (t - interval) t := by
    unfold admitted
    rw [← List.countP_eq_length_filter, ← List.countP_eq_length_filter]
    apply List.countP_mono_left
    intro p _ hp
    simp only [Bool.and_eq_true, decide_eq_true_eq] at hp ⊢
    exact ⟨⟨hp.1.1, by omega⟩, hp.2⟩
  omega

/-- A zero interval or burst means "unlimited". -/
theorem ratelimit_unlimited (interval burst : Nat) (h : interval = 0 ∨ burst = 0) (ts : List Nat) :
    ∀ p ∈ run (init interval burst) ts, p.2 = true := by
  induction ts with
  | nil => simp [run]
  | cons t ts ih =>
    rw [run_cons]
    have : test (init interval burst) t = (init interval burst, true) := by
      unfold test; rw [if_pos (by simpa [init] using h)]
    rw [this]
    intro p hp
    rcases List.mem_cons.1 hp with rfl | hp
    · rfl
    · exact ih p hp

/-- Forgetting the state restores the initial limiter. -/
theorem ratelimit_reset (interval burst : Nat) (ts : List Nat) :
    reset (after (init interval burst) ts) = init interval burst := by
  have : ∀ r, (after r ts).interval = r.interval ∧ (after r ts).burst = r.burst := by
    induction ts with
    | nil => intro r; exact ⟨rfl, rfl⟩
    | cons t ts ih =>
      intro r
      have h1 : (test r t).1.interval = r.interval ∧ (test r t).1.burst = r.burst := by
        unfold test; split
        · exact ⟨rfl, rfl⟩
        · split
          · exact ⟨rfl, rfl⟩
          · split <;> exact ⟨rfl, rfl⟩
      have := ih (test r t).1
      exact ⟨this.1.trans h1.1, this.2.trans h1.2⟩
  have h := this (init interval burst)
  unfold reset
  simp only [h.1, h.2]
  rfl

/-- C13 is **violated** for limiters made with `SHL_RATELIMIT_DEFINE` (no user in the tree):
the macro stores the burst in the `begin` field and leaves `burst = 0`, so nothing is ever
denied. -/
theorem ratelimit_define_refuted (interval burst : Nat) (ts : List Nat) :
    ∀ p ∈ run (define interval burst) ts, p.2 = true := by
  induction ts with
  | nil => simp [run]
  | cons t ts ih =>
    rw [run_cons]
    have : test (define interval burst) t = (define interval burst, true) := by
      unfold test; rw [if_pos (by simp [define])]
    rw [this]
    intro p hp
    rcases List.mem_cons.1 hp with rfl | hp
    · rfl
    · exact ih p hp

-- Two windows, a denial in the first; the second denial in the second.
example : run (init 10 2) [1, 3, 5, 11, 12, 13, 22, 23] =
    [(1, true), (3, true), (5, false), (11, false), (12, true), (13, true), (22, false), (23, true)] := by
  decide
example : Sane 10 [1, 3, 5, 11, 12, 13, 22, 23] := by unfold Sane; decide
example : admitted (run (init 10 2) [1, 10, 11, 12, 13]) 10 20 = 3 := by decide

end Verif.Ratelimit
