import Verif.Spec.IfName
/-!
# The interface of the DHCP helper: theorems

C151.
-/
namespace Verif.IfName
open Verif.C Spec

theorem takeWhile_all {p : Byte → Bool} : ∀ {l : List Byte}, (∀ b ∈ l, p b = true) → l.takeWhile p = l
  | [], _ => rfl
  | a :: l, h => by
    rw [List.takeWhile_cons, if_pos (h a List.mem_cons_self), takeWhile_all fun b hb => h b (List.mem_cons_of_mem _ hb)]

theorem no_colon {n : List Byte} (hc : ch ':' ∉ n) : n.takeWhile (· ≠ ch ':') = n := by
  refine takeWhile_all fun b hb => ?_
  have : b ≠ ch ':' := fun e => hc (e ▸ hb)
  simpa using this

theorem takeWhile_zeros {l : List Byte} (h0 : 0 ∉ l) (k : Nat) : (l ++ List.replicate k 0).takeWhile (· ≠ 0) = l := by
  induction l with
  | nil => cases k <;> simp [List.replicate_succ]
  | cons a l ih =>
    have ha : a ≠ 0 := fun e => h0 (e ▸ List.mem_cons_self)
    rw [List.cons_append, List.takeWhile_cons, if_pos (by simpa using ha), ih fun hm => h0 (List.mem_cons_of_mem _ hm)]

/-- What the kernel reads of a name: its first 15 bytes, up to a colon. -/
theorem heard_field {n : List Byte} (h0 : 0 ∉ n) : heard (field n) = (n.take 15).takeWhile (· ≠ ch ':') := by
  have e : (field n).take 15 = n.take 15 ++ List.replicate (15 - n.length) 0 := by
    unfold field
    rw [List.take_take, List.take_append, List.take_replicate]
    congr 2
    omega
  unfold heard
  rw [e, takeWhile_zeros]
  exact fun hm => h0 (List.mem_of_mem_take hm)

theorem find_has {t : Table} (hm : Machine t) {n : List Byte} {i : Nat} : (t.find? (fun e => e.1 = n)).map (·.2) = some i ↔ Has t n i := by
  constructor
  · intro h
    obtain ⟨e, he, rfl⟩ := Option.map_eq_some_iff.mp h
    have h1 := List.find?_some he
    have h2 := List.mem_of_find?_eq_some he
    simp only [decide_eq_true_eq] at h1
    unfold Has
    rw [← h1]
    exact h2
  · intro h
    cases hf : t.find? (fun e => e.1 = n) with
    | none =>
      rw [List.find?_eq_none] at hf
      exact absurd (hf _ h) (by simp)
    | some e =>
      have h1 := List.find?_some hf
      simp only [decide_eq_true_eq] at h1
      rw [hm.once e (List.mem_of_find?_eq_some hf) (n, i) h h1]
      rfl

/-- The number found for any name: that of the interface named by its first 15 bytes up to a colon. -/
theorem index_of {t : Table} (hm : Machine t) {n : List Byte} (h0 : 0 ∉ n) (i : Nat) :
    ifindex t none n = some i ↔ n.length ≤ 16 ∧ Has t ((n.take 15).takeWhile (· ≠ ch ':')) i := by
  unfold ifindex ifNameToIndex
  by_cases hl : n.length > 16
  · simp only [if_pos hl]
    constructor
    · intro h; simp [EINVAL] at h
    · intro h; omega
  · simp only [if_neg hl, kernel, heard_field h0]
    rw [← find_has hm]
    cases hf : t.find? (fun e => e.1 = (n.take 15).takeWhile (· ≠ ch ':')) with
    | none => simp
    | some e =>
      have hneg : ¬ ((e.2 : Int) < 0) := by omega
      simp [hneg, Nat.le_of_not_lt hl]

/-- **C151 (in part: names without a colon and not of 16 bytes).** The helper starts exactly if there is an interface of that name, and then with its number. Missing: the other names, for which this is false, see below. -/
theorem right_interface_partial {t : Table} (hm : Machine t) {n : List Byte} (h0 : 0 ∉ n) (hc : ch ':' ∉ n) (hl : n.length ≠ 16) (i : Nat) : ifindex t none n = some i ↔ Has t n i := by
  rw [index_of hm h0]
  constructor
  · rintro ⟨h, k⟩
    rw [List.take_of_length_le (by omega), no_colon hc] at k
    exact k
  · intro h
    have hv := (hm.valid _ h).2.1
    simp only at hv
    rw [List.take_of_length_le hv, no_colon hc]
    exact ⟨by omega, h⟩

/-- **C151 (an interface that exists is always found).** -/
theorem existing_found {t : Table} (hm : Machine t) {n : List Byte} {i : Nat} (h : Has t n i) : ifindex t none n = some i := by
  obtain ⟨-, hl, h0, hc⟩ := hm.valid _ h
  have hl : n.length ≤ 15 := hl
  exact (right_interface_partial hm h0 hc (by omega) i).mpr h

/-- **C151 (not so: 16 bytes).** A name of 16 bytes names no interface, but the one named by its first 15 is taken. -/
theorem long_name_wrong {t : Table} (hm : Machine t) {n : List Byte} {b : Byte} {i : Nat} (h : Has t n i) (hl : n.length = 15) (hb : b ≠ 0) :
    ifindex t none (n ++ [b]) = some i ∧ ∀ j, ¬ Has t (n ++ [b]) j := by
  obtain ⟨-, -, h0, hc⟩ := hm.valid _ h
  refine ⟨(index_of hm (by simp [h0, hb.symm]) i).mpr ⟨by simp [hl], ?_⟩, ?_⟩
  · rw [List.take_left' hl, no_colon hc]
    exact h
  · intro j hj
    have := (hm.valid _ hj).2.1
    simp [hl] at this

/-- **C151 (not so: colons).** Of a name with a colon what is before it is taken. -/
theorem colon_wrong {t : Table} (hm : Machine t) {n r : List Byte} {i : Nat} (h : Has t n i) (hr : 0 ∉ r) (hl : n.length + r.length < 16) :
    ifindex t none (n ++ ch ':' :: r) = some i ∧ ∀ j, ¬ Has t (n ++ ch ':' :: r) j := by
  obtain ⟨-, hn, h0, hc⟩ := hm.valid _ h
  simp only at hn
  have tw : ∀ (l m : List Byte), ch ':' ∉ l → (l ++ ch ':' :: m).takeWhile (· ≠ ch ':') = l := by
    intro l m hl
    induction l with
    | nil => simp
    | cons a l ih =>
      have ha : a ≠ ch ':' := fun e => hl (e ▸ List.mem_cons_self)
      rw [List.cons_append, List.takeWhile_cons, if_pos (by simpa using ha), ih fun hm => hl (List.mem_cons_of_mem _ hm)]
  refine ⟨(index_of hm (by simp [h0, hr, show (0 : Byte) ≠ ch ':' by decide]) i).mpr ⟨by simp; omega, ?_⟩, ?_⟩
  · have e : ((n ++ ch ':' :: r).take 15).takeWhile (· ≠ ch ':') = n := by
      rw [List.take_append]
      rcases Nat.eq_or_lt_of_le hn with e | e
      · rw [e]
        simp only [Nat.sub_self, List.take_zero, List.append_nil]
        rw [List.take_of_length_le (by omega)]
        exact no_colon hc
      · obtain ⟨k, hk⟩ : ∃ k, 15 - n.length = k + 1 := ⟨14 - n.length, by omega⟩
        rw [hk, List.take_succ_cons, List.take_of_length_le (by omega)]
        exact tw n _ hc
    rw [e]; exact h
  · intro j hj
    exact (hm.valid _ hj).2.2.2 (by simp)

/-- **C151.** Whatever the name and the outcome, a socket that could be made is closed. -/
theorem socket_closed (t : Table) (n : List Byte) : (ifNameToIndex t none n).2.count .socket = (ifNameToIndex t none n).2.count .close := by
  unfold ifNameToIndex
  split
  · rfl
  · simp

/-- A machine with two interfaces. -/
def two : Table := [(bytes "lo", 1), (bytes "p2p-wlan0-12345", 7)]

example : Machine two where
  valid := by
    intro e he
    simp only [two, List.mem_cons, List.not_mem_nil, or_false] at he
    rcases he with rfl | rfl <;> refine ⟨?_, ?_, ?_, ?_⟩ <;> decide +kernel
  once := by
    intro e he f hf
    simp only [two, List.mem_cons, List.not_mem_nil, or_false] at he hf
    rcases he with rfl | rfl <;> rcases hf with rfl | rfl <;> decide +kernel
  pos := by
    intro e he
    simp only [two, List.mem_cons, List.not_mem_nil, or_false] at he
    rcases he with rfl | rfl <;> decide

example : ifindex two none (bytes "p2p-wlan0-12345") = some 7 := by decide +kernel
example : ifindex two none (bytes "p2p-wlan0") = none := by decide +kernel
example : ifindex two none (bytes "p2p-wlan0-123456") = some 7 := by decide +kernel
example : ifindex two none (bytes "lo:1") = some 1 := by decide +kernel
example : ifNameToIndex two none (bytes "p2p-wlan0-1234567") = (-EINVAL, []) := by decide +kernel

end Verif.IfName
