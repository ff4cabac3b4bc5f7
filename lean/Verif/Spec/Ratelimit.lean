import Verif.C.Basic
/-! # Specification of a fixed-window rate limiter -/
namespace Verif.Ratelimit.Spec
open Verif.C

/-- The answers an ideal limiter gives to calls at the given times: the first call opens a
window, all following calls up to `interval` later belong to it, the first `burst` calls of
a window are admitted and the rest denied; the first call after it opens the next window. -/
def answers (interval burst : Nat) : List Nat → List Bool
  | [] => []
  | t :: ts =>
    let window := t :: ts.takeWhile (· ≤ t + interval)
    (List.range window.length).map (fun i => decide (i < burst)) ++
      answers interval burst (ts.dropWhile (· ≤ t + interval))
termination_by ts => ts.length
decreasing_by
  have := (List.dropWhile_suffix (fun x => decide (x ≤ t + interval)) (l := ts)).length_le
  simp only [List.length_cons]; omega

end Verif.Ratelimit.Spec
