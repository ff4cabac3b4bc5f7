import Verif.Proof.SinkRun
import Verif.Props.Wpas
/-! Helper lemmas about the setting of remote input. -/
namespace Verif.Sink
open Verif.C

theorem pieces_run (p : List Byte) (h : ch ';' ∉ p) : ∀ cur t, pieces cur (p ++ t) = pieces (cur ++ p) t := by
  induction p with
  | nil => intro cur t; simp
  | cons a p ih =>
    intro cur t
    simp only [List.mem_cons, not_or] at h
    rw [List.cons_append]
    have e : pieces cur (a :: (p ++ t)) = if a = ch ';' then (if cur = [] then [] else [cur]) ++ pieces [] (p ++ t) else pieces (cur ++ [a]) (p ++ t) := rfl
    rw [e, if_neg (fun e => h.1 e.symm), ih h.2]
    simp

theorem pieces_joined (ps : List (List Byte)) (h : ∀ p ∈ ps, p ≠ [] ∧ ch ';' ∉ p) : pieces [] (Spec.joined ps) = ps := by
  induction ps with
  | nil => rfl
  | cons p ps ih =>
    obtain ⟨h1, h2⟩ := h p (by simp)
    cases ps with
    | nil =>
      have e : Spec.joined [p] = p ++ [] := by simp [Spec.joined, List.intercalate]
      rw [e, pieces_run p h2]
      show (if [] ++ p = [] then [] else [[] ++ p]) = [p]
      rw [if_neg (by simpa using h1)]
      rfl
    | cons q qs =>
      have e : Spec.joined (p :: q :: qs) = p ++ (ch ';' :: Spec.joined (q :: qs)) := by
        simp [Spec.joined, List.intercalate, List.intersperse]
      rw [e, pieces_run p h2]
      have := ih fun x hx => h x (by simp [hx])
      unfold pieces
      rw [if_pos rfl, if_neg (by simpa using h1), this]
      rfl

theorem digit_not_space : ∀ a : Byte, 48 ≤ a.toNat → a.toNat ≤ 57 → ¬ isSpace a = true := fun c => by
  have h : ∀ n : Fin 256, 48 ≤ (UInt8.ofFin n).toNat → (UInt8.ofFin n).toNat ≤ 57 → ¬ isSpace (UInt8.ofFin n) = true := by decide +kernel
  exact h c.toFin

theorem scan_port (n : Nat) (h : n ≤ 2147483647) : scanAfter (bytes "port=") (bytes "port=" ++ dec n) = some (1, some (n : Int)) := by
  have e : bytes "port=" = [ch 'p', ch 'o', ch 'r', ch 't', ch '='] := by decide
  have h2 : ∀ l t, scanAfter l (l ++ t) = scanAfter [] t := by
    intro l
    induction l with
    | nil => intro t; rfl
    | cons a l ih => intro t; simp only [List.cons_append, scanAfter, if_true]; exact ih t
  rw [h2]
  unfold scanAfter
  have hd : (dec n).dropWhile isSpace ≠ [] := by
    intro hx
    cases hq : dec n with
    | nil => exact dec_ne_nil n hq
    | cons a l =>
      have h3 : isSpace a = true := by
        rw [hq, List.dropWhile_cons] at hx
        split at hx
        · assumption
        · cases hx
      obtain ⟨h4, h5, _⟩ := dec_digits n a (by rw [hq]; simp)
      exact digit_not_space a h4 h5 h3
  rw [if_neg hd]
  have h3 := Wpas.sscanfD_dec (n : Int) (by omega) (by omega)
  have h4 : decInt (n : Int) = dec n := by
    unfold decInt
    rw [if_neg (by omega)]
    simp
  rw [h4] at h3
  rw [h3]
  rfl

theorem scan_other (t : List Byte) (h : t ≠ []) (hp : t.head? ≠ some (ch 'p')) : scanAfter (bytes "port=") t = some (0, none) := by
  have e : bytes "port=" = [ch 'p', ch 'o', ch 'r', ch 't', ch '='] := by decide
  rw [e]
  cases t with
  | nil => exact absurd rfl h
  | cons a t =>
    unfold scanAfter
    rw [if_neg]
    intro x
    apply hp
    rw [x]
    rfl

theorem scanPorts_skip (opt en : Bool) (port : Int) (pre post : List (List Byte)) (h : ∀ p ∈ pre, p ≠ [] ∧ p.head? ≠ some (ch 'p')) :
    scanPorts opt en port (pre ++ post) = scanPorts opt en port post := by
  induction pre with
  | nil => rfl
  | cons p pre ih =>
    obtain ⟨h1, h2⟩ := h p (by simp)
    rw [List.cons_append]
    have e : scanPorts opt en port (p :: (pre ++ post)) = (scanAfter (bytes "port=") p).bind fun r =>
        if r.1 ≠ 0 then some (if opt then true else en, r.2.getD port) else scanPorts opt en port (pre ++ post) := rfl
    rw [e, scan_other p h1 h2]
    simp only [Option.bind_some, ne_eq, not_true_eq_false, if_false]
    exact ih fun q hq => h q (by simp [hq])

end Verif.Sink
