import Verif.Proof.Atoi
import Verif.Model.Rtsp
/-! Numbers and first lines read back: helper lemmas. -/
namespace Verif.Rtsp
open Verif.C

theorem digits_cons {c : Byte} {v : Nat} {t : List Byte} (h : Atoi.Spec.digit 10 c = some v) :
    Atoi.Spec.digits 10 (c :: t) = v :: Atoi.Spec.digits 10 t := by
  show (match Atoi.Spec.digit 10 c with | some v => v :: Atoi.Spec.digits 10 t | none => []) = _
  rw [h]

theorem digits_append (a r : List Byte) (ha : ∀ c ∈ a, (Atoi.Spec.digit 10 c).isSome = true) :
    Atoi.Spec.digits 10 (a ++ r) = Atoi.Spec.digits 10 a ++ Atoi.Spec.digits 10 r := by
  induction a with
  | nil => rfl
  | cons c t ih =>
    have hc := ha c List.mem_cons_self
    cases hd : Atoi.Spec.digit 10 c with
    | none => rw [hd] at hc; cases hc
    | some v =>
      rw [List.cons_append, digits_cons hd, digits_cons hd, ih (fun x hx => ha x (List.mem_cons_of_mem _ hx)), List.cons_append]

theorem digit_dec : ∀ d < 10, Atoi.Spec.digit 10 (48 + d).toUInt8 = some d := by decide +kernel

theorem dec_isdigit (n : Nat) : ∀ c ∈ dec n, (Atoi.Spec.digit 10 c).isSome = true := by
  induction n using Nat.strongRecOn with
  | _ n ih =>
    intro c hc
    rw [dec_eq] at hc
    split at hc
    · rename_i h
      rw [List.mem_singleton.mp hc, digit_dec n h]; rfl
    · rename_i h
      rcases List.mem_append.mp hc with hc | hc
      · exact ih (n / 10) (by omega) c hc
      · rw [List.mem_singleton.mp hc, digit_dec _ (by omega)]; rfl

theorem digits_dec (n : Nat) : Atoi.Spec.value 10 (Atoi.Spec.digits 10 (dec n)) = n ∧
    (Atoi.Spec.digits 10 (dec n)).length = (dec n).length := by
  induction n using Nat.strongRecOn with
  | _ n ih =>
    rw [dec_eq]
    split
    · rename_i h
      simp only [Atoi.Spec.digits, digit_dec n h, Atoi.Spec.value]
      simp
    · rename_i h
      obtain ⟨h1, h2⟩ := ih (n / 10) (by omega)
      rw [digits_append _ _ (dec_isdigit _)]
      simp only [Atoi.Spec.digits, digit_dec (n % 10) (by omega)]
      rw [Atoi.value_snoc, h1]
      simp only [List.length_append, h2]
      exact ⟨by omega, rfl⟩

/-- What stops a number. -/
def Stops (r : List Byte) : Prop := ∀ c, r.head? = some c → Atoi.Spec.digit 10 c = none

theorem digits_stop (r : List Byte) (h : Stops r) : Atoi.Spec.digits 10 r = [] := by
  cases r with
  | nil => rfl
  | cons c t => unfold Atoi.Spec.digits; rw [h c rfl]

theorem atoi_dec (n : Nat) (r : List Byte) (hr : Stops r) (hn : n < W64) :
    Atoi.atoiUlln (dec n ++ r) 10 = ⟨0, (dec n).length, n⟩ := by
  have hd := digits_append (dec n) r (dec_isdigit n)
  rw [digits_stop r hr, List.append_nil] at hd
  have hnum : Atoi.Spec.number (dec n ++ r) 10 = n := by
    show Atoi.Spec.value 10 (Atoi.Spec.digits 10 (dec n ++ r)) = n
    rw [hd]; exact (digits_dec n).1
  have hstop : Atoi.Spec.stop (dec n ++ r) 10 = (dec n).length := by
    show 0 + (Atoi.Spec.digits 10 (dec n ++ r)).length = _
    rw [hd, (digits_dec n).2]; omega
  obtain ⟨h1, h2⟩ := Atoi.atoiUlln_spec (dec n ++ r) 10 (by decide)
  rw [hnum] at h2
  rw [hstop] at h1
  rcases h2 with ⟨_, h3, h4⟩ | h2 | h2
  · cases hx : Atoi.atoiUlln (dec n ++ r) 10 with
    | mk a b c => rw [hx] at h1 h3 h4; simp only at h1 h3 h4; rw [h1, h3, h4]
  · have := h2.1; omega
  · have := h2.1; omega

theorem atoiZn_dec (n : Nat) (r : List Byte) (hr : Stops r) (hn : n < W64) :
    Atoi.atoiZn (dec n ++ r) 10 = ⟨0, (dec n).length, n⟩ := by
  unfold Atoi.atoiZn
  rw [atoi_dec n r hr hn]
  unfold Atoi.narrow
  have : ¬ W64 - 1 < n := by omega
  simp [this]
  exact Nat.min_eq_left (by omega)

theorem atoiUn_dec (n : Nat) (r : List Byte) (hr : Stops r) (hn : n < W32) :
    Atoi.atoiUn (dec n ++ r) 10 = ⟨0, (dec n).length, n⟩ := by
  unfold Atoi.atoiUn
  rw [atoi_dec n r hr (by have : W32 = 4294967296 := rfl; have : W64 = 18446744073709551616 := rfl; omega)]
  unfold Atoi.narrow
  have : ¬ W32 - 1 < n := by omega
  simp [this]
  exact Nat.min_eq_left (by omega)

theorem version_dec (a b : Nat) (r : List Byte) (ha : a < W32) (hb : b < W32) (hr : Stops r) :
    version (bytes "RTSP/" ++ dec a ++ [ch '.'] ++ dec b ++ r) = some (a, b, r) := by
  have e : bytes "RTSP/" ++ dec a ++ [ch '.'] ++ dec b ++ r = bytes "RTSP/" ++ (dec a ++ (ch '.' :: (dec b ++ r))) := by simp
  have hd : List.drop 5 (bytes "RTSP/" ++ (dec a ++ (ch '.' :: (dec b ++ r)))) = dec a ++ (ch '.' :: (dec b ++ r)) := List.drop_left' rfl
  have ht : List.take 5 (bytes "RTSP/" ++ (dec a ++ (ch '.' :: (dec b ++ r)))) = bytes "RTSP/" := List.take_left' rfl
  have s1 : Stops (ch '.' :: (dec b ++ r)) := by
    intro c hc; cases hc; decide +kernel
  rw [e]
  unfold version
  rw [ht, if_neg (by decide), hd]
  simp only
  rw [atoiUn_dec a _ s1 ha]
  simp only
  rw [if_neg (by
    rw [List.drop_left]
    intro h
    rcases h with h | h
    · exact dec_ne_nil a (List.length_eq_zero_iff.mp h)
    · exact h rfl)]
  have hd2 : List.drop ((dec a).length + 1) (dec a ++ ch '.' :: (dec b ++ r)) = dec b ++ r := by
    rw [← List.drop_drop, List.drop_left]; rfl
  rw [hd2, atoiUn_dec b r hr hb]
  simp only
  rw [if_neg (fun h => dec_ne_nil b (List.length_eq_zero_iff.mp h)), List.drop_left]

theorem cut_at (c : Byte) (a r : List Byte) (h : c ∉ a) : cut c (a ++ c :: r) = some (a, r) := by
  have hp : ∀ x ∈ a, decide (x ≠ c) = true := fun x hx => decide_eq_true (fun e => h (e ▸ hx))
  unfold cut
  rw [List.dropWhile_append_of_pos hp, List.takeWhile_append_of_pos hp]
  simp

/-- A request line read back. -/
theorem fromHead_request (method uri : List Byte) (a b : Nat) (hm : method ≠ []) (hu : uri ≠ []) (hm' : ch ' ' ∉ method) (hu' : ch ' ' ∉ uri)
    (hp : caseEq (method.take 5) (bytes "RTSP/") = false) (ha : a < W32) (hb : b < W32) :
    fromHead (method ++ [ch ' '] ++ uri ++ bytes " RTSP/" ++ dec a ++ [ch '.'] ++ dec b) =
      some { newMsg with type := .request, method := method, uri := uri, major := a, minor := b } := by
  have hv : version (bytes "RTSP/" ++ dec a ++ [ch '.'] ++ dec b) = some (a, b, []) := by
    have := version_dec a b [] ha hb (by intro c hc; cases hc)
    rw [List.append_nil] at this
    exact this
  have e : method ++ [ch ' '] ++ uri ++ bytes " RTSP/" ++ dec a ++ [ch '.'] ++ dec b =
      method ++ ch ' ' :: (uri ++ ch ' ' :: (bytes "RTSP/" ++ dec a ++ [ch '.'] ++ dec b)) := by
    rw [show bytes " RTSP/" = ch ' ' :: bytes "RTSP/" from rfl]; simp
  rw [e]
  have hp' : caseEq (List.take 5 (method ++ ch ' ' :: (uri ++ ch ' ' :: (bytes "RTSP/" ++ dec a ++ [ch '.'] ++ dec b)))) (bytes "RTSP/") = false := by
    by_cases hl : 5 ≤ method.length
    · rw [List.take_append_of_le_length hl]; exact hp
    · generalize (uri ++ ch ' ' :: (bytes "RTSP/" ++ dec a ++ [ch '.'] ++ dec b)) = z
      have hmem : ch ' ' ∈ List.take 5 (method ++ ch ' ' :: z) := by
        rw [List.take_append]
        refine List.mem_append.mpr (Or.inr ?_)
        obtain ⟨k, hk⟩ : ∃ k, 5 - method.length = k + 1 := ⟨4 - method.length, by omega⟩
        rw [hk]; simp
      cases hce : caseEq (List.take 5 (method ++ ch ' ' :: z)) (bytes "RTSP/") with
      | false => rfl
      | true =>
        unfold caseEq at hce
        have := of_decide_eq_true hce
        have hm2 : toLower (ch ' ') ∈ List.map toLower (List.take 5 (method ++ ch ' ' :: z)) := List.mem_map_of_mem hmem
        rw [this] at hm2
        exact absurd hm2 (by decide)
  unfold fromHead
  rw [if_neg (by rw [hp']; decide)]
  unfold fromRequest
  simp only [Option.bind_eq_bind]
  rw [cut_at _ _ _ hm']
  simp only [Option.bind_some]
  rw [if_neg hm, cut_at _ _ _ hu']
  simp only [Option.bind_some]
  rw [if_neg hu, hv]
  simp only [Option.bind_some]
  rw [if_neg (by simp)]
  unfold newRequest
  simp only [Option.bind_some, pure]
  rw [if_neg (fun h => h.elim hm hu)]
  rfl

/-- A reply line read back. -/
theorem fromHead_reply (code : Nat) (phrase : List Byte) (a b : Nat) (hc : code < W32 - 1) (hp : phrase ≠ []) (ha : a < W32) (hb : b < W32) :
    fromHead (bytes "RTSP/" ++ dec a ++ [ch '.'] ++ dec b ++ [ch ' '] ++ dec code ++ [ch ' '] ++ phrase) =
      some { newMsg with type := .reply, code := code, phrase := phrase, major := a, minor := b } := by
  have sp : ∀ r, Stops (ch ' ' :: r) := by intro r c hc; cases hc; decide +kernel
  have e : bytes "RTSP/" ++ dec a ++ [ch '.'] ++ dec b ++ [ch ' '] ++ dec code ++ [ch ' '] ++ phrase =
      bytes "RTSP/" ++ dec a ++ [ch '.'] ++ dec b ++ (ch ' ' :: (dec code ++ ch ' ' :: phrase)) := by simp
  have hv := version_dec a b (ch ' ' :: (dec code ++ ch ' ' :: phrase)) ha hb (sp _)
  rw [e]
  unfold fromHead
  have ht : List.take 5 (bytes "RTSP/" ++ dec a ++ [ch '.'] ++ dec b ++ (ch ' ' :: (dec code ++ ch ' ' :: phrase))) = bytes "RTSP/" := by
    rw [List.append_assoc, List.append_assoc, List.append_assoc]
    exact List.take_left' rfl
  rw [ht, if_pos (by decide)]
  unfold fromReply
  simp only [Option.bind_eq_bind]
  rw [hv]
  simp only [Option.bind_some]
  rw [if_neg (by simp)]
  simp only [List.drop_succ_cons, List.drop_zero]
  rw [atoiUn_dec code _ (sp _) (by omega)]
  simp only
  rw [if_neg (fun h => dec_ne_nil code (List.length_eq_zero_iff.mp h)), List.drop_left]
  rw [if_neg (by simp)]
  simp only [Option.bind_some, pure]
  unfold newRawReply
  rw [if_neg (by omega), show List.drop 1 (ch ' ' :: phrase) = phrase from rfl, if_neg hp]
  rfl

end Verif.Rtsp
