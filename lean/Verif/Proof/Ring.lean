import Verif.Spec.Ring
/-! Helper lemmas for the ring buffer: the simulation relation and its preservation. -/
namespace Verif.Ring
open Verif.C

/-- position of the i-th queued byte in the buffer -/
def idx (r : Ring) (i : Nat) : Nat :=
  if r.start + i < r.size then r.start + i else r.start + i - r.size

/-- Simulation relation between a ring and the queue content. -/
structure Sim (r : Ring) (q : List Byte) : Prop where
  len : r.buf.length = r.size
  pow : r.size = 0 ∨ ∃ k, k ≤ 63 ∧ r.size = 2 ^ k
  start : r.start < r.size ∨ (r.size = 0 ∧ r.start = 0)
  used : r.used ≤ r.size
  qlen : q.length = r.used
  elt : ∀ i, i < r.used → q[i]? = r.buf[idx r i]?

theorem pow63 {k : Nat} (h : k ≤ 63) : 2 ^ k ≤ 9223372036854775808 := by
  have : 2 ^ k ≤ 2 ^ 63 := Nat.pow_le_pow_right (by decide) h
  simpa using this

theorem Sim.size_le {r : Ring} {q} (h : Sim r q) : r.size ≤ 9223372036854775808 := by
  rcases h.pow with h | ⟨k, hk, h⟩
  · omega
  · have := pow63 hk; omega

theorem mask_eq {r : Ring} {k v : Nat} (hk : k ≤ 63) (hs : r.size = 2 ^ k) (hv : v < W64) :
    mask r v = v % r.size := by
  have h1 := pow63 hk
  have h2 : 0 < 2 ^ k := Nat.pow_pos (by decide)
  have : (r.size + W64 - 1) % W64 = 2 ^ k - 1 := by simp only [W64] at *; omega
  unfold mask
  rw [this, Nat.mod_eq_of_lt hv, Nat.and_two_pow_sub_one_eq_mod, hs]

theorem mask_zero {r : Ring} {v : Nat} (hv : v = 0) :
    mask r v = 0 := by
  subst hv; unfold mask; rw [Nat.zero_mod, Nat.zero_and]

theorem mod_wrap {a s : Nat} (h : a < 2 * s) : a % s = if a < s then a else a - s := by
  split
  · exact Nat.mod_eq_of_lt ‹_›
  · rw [Nat.mod_eq_sub_mod (by omega), Nat.mod_eq_of_lt (by omega)]

theorem sim_zero : Sim zero [] := by
  constructor <;> simp [zero]

theorem sim_flush {r q} (h : Sim r q) : Sim (flush r) [] := by
  have := h.start
  constructor <;> simp [flush, h.len, h.pow]
  omega

theorem sim_pull {r q} (n : Nat) (h : Sim r q) : Sim (pull r n) (q.drop n) := by
  obtain ⟨h1, h2, h3, h4, h5, h6⟩ := h
  generalize hm : (if n > r.used then r.used else n) = m
  have hmu : m ≤ r.used := by split at hm <;> omega
  have hq : q.drop n = q.drop m := by
    split at hm
    · subst hm; rw [List.drop_eq_nil_of_le (by omega), List.drop_eq_nil_of_le (by omega)]
    · rw [hm]
  have hst : (pull r n).start = if r.size = 0 then 0 else (r.start + m) % r.size := by
    simp only [pull, hm]
    rcases h2 with h2 | ⟨k, hk, h2⟩
    · rw [mask_zero (by omega)]; simp [h2]
    · have := pow63 hk
      have : 0 < 2 ^ k := Nat.pow_pos (by decide)
      rw [mask_eq hk h2 (by simp only [W64]; omega)]
      simp; omega
  have hst' : (pull r n).start = if r.start + m < r.size then r.start + m else r.start + m - r.size := by
    rw [hst]; split
    · have : m = 0 := by omega
      split <;> omega
    · exact mod_wrap (by omega)
  have hsz : (pull r n).size = r.size := rfl
  have hb : (pull r n).buf = r.buf := rfl
  have hus : (pull r n).used = r.used - m := by simp only [pull, hm]
  constructor
  · rw [hb, hsz, h1]
  · rw [hsz]; exact h2
  · rw [hsz, hst']; split <;> omega
  · omega
  · rw [hq, List.length_drop]; omega
  · intro i hi
    rw [hus] at hi
    rw [hq, List.getElem?_drop, h6 (m + i) (by omega), hb]
    congr 1
    simp only [idx, hst', hsz]
    grind

theorem alignPow2_spec {u : Nat} (h1 : 2 ≤ u) (h2 : u ≤ 9223372036854775808) :
    ∃ k, k ≤ 63 ∧ alignPow2 u = some (2 ^ k) ∧ u ≤ 2 ^ k ∧ 2 ^ k < 2 * u := by
  unfold alignPow2
  have hv : (u + W64 - 1) % W64 = u - 1 := by simp only [W64]; omega
  have hlt : u - 1 < 2 ^ 63 := by simp; omega
  have hlog : Nat.log2 (u - 1) < 63 := (Nat.log2_lt (by omega)).2 hlt
  refine ⟨Nat.log2 (u - 1) + 1, by omega, ?_, ?_, ?_⟩
  · rw [if_neg (by omega)]
    simp only [hv]
    rw [if_neg (by omega), if_neg (by omega)]
    have := pow63 (show Nat.log2 (u - 1) + 1 ≤ 63 by omega)
    rw [Nat.mod_eq_of_lt (by simp only [W64]; omega)]
  · have := @Nat.lt_log2_self (u - 1); omega
  · have := Nat.log2_self_le (show u - 1 ≠ 0 by omega)
    rw [Nat.pow_succ]; omega

theorem sim_resize {r q} {k : Nat} (junk : Nat → Byte) (h : Sim r q) (hk : k ≤ 63)
    (hn : r.used ≤ 2 ^ k) :
    ∃ r', resize r (2 ^ k) (some junk) = some (r', 0) ∧ Sim r' q ∧ r'.size = 2 ^ k ∧
      r'.used = r.used := by
  have hsz := h.size_le
  obtain ⟨h1, h2, h3, h4, h5, h6⟩ := h
  have hl : (r.size + W64 - r.start) % W64 = r.size - r.start := by simp only [W64]; omega
  have hp : 0 < 2 ^ k := Nat.pow_pos (by decide)
  have key : ∀ buf : List Byte, buf.length = 2 ^ k →
      (∀ i, i < r.used → q[i]? = buf[i]?) →
      Sim { r with buf := buf, size := 2 ^ k, start := 0 } q := by
    intro buf hb he
    constructor
    · exact hb
    · exact Or.inr ⟨k, hk, rfl⟩
    · exact Or.inl hp
    · exact hn
    · exact h5
    · intro i hi
      simp only [idx] at *
      rw [he i hi]
      congr 1
      have : i < 2 ^ k := Nat.lt_of_lt_of_le hi hn
      grind
  unfold resize
  simp only [hl]
  by_cases hu : r.used > 0
  · rw [if_pos hu]
    by_cases hle : r.used ≤ r.size - r.start
    · rw [if_pos hle]
      obtain ⟨d, e1, l1, g1⟩ := rd_ex (b := r.buf) (i := r.start) (n := r.used) (by omega)
      obtain ⟨B, e2, l2, g2⟩ := wr_ex (b := fresh junk (2 ^ k)) (i := 0) (d := d)
        (by rw [l1, length_fresh]; omega)
      simp only [e1, e2, Option.bind_eq_bind, Option.bind_some]
      refine ⟨_, rfl, key _ ?_ ?_, rfl, rfl⟩
      · rw [l2, length_fresh]
      · intro i hi
        rw [g2, h6 i hi, l1, if_pos (by omega), g1]
        simp only [idx]
        clear key g1 g2 e1 e2 hl h6 h2
        grind
    · rw [if_neg hle]
      obtain ⟨d, e1, l1, g1⟩ := rd_ex (b := r.buf) (i := r.start) (n := r.size - r.start) (by omega)
      obtain ⟨B, e2, l2, g2⟩ := wr_ex (b := fresh junk (2 ^ k)) (i := 0) (d := d)
        (by rw [l1, length_fresh]; omega)
      obtain ⟨d', e3, l3, g3⟩ := rd_ex (b := r.buf) (i := 0) (n := r.used - (r.size - r.start)) (by omega)
      obtain ⟨B', e4, l4, g4⟩ := wr_ex (b := B) (i := r.size - r.start) (d := d')
        (by rw [l3, l2, length_fresh]; omega)
      simp only [e1, e2, e3, e4, Option.bind_eq_bind, Option.bind_some]
      refine ⟨_, rfl, key _ ?_ ?_, rfl, rfl⟩
      · rw [l4, l2, length_fresh]
      · intro i hi
        rw [g4, g2, h6 i hi, l3, l1, g3, g1]
        simp only [idx]
        clear key g1 g2 g3 g4 e1 e2 e3 e4 hl h6 h2
        grind
  · rw [if_neg hu]
    refine ⟨_, rfl, key _ (length_fresh _ _) ?_, rfl, rfl⟩
    intro i hi; omega

/-- growing: never UB, keeps the queue; afterwards either there is room or the
allocation failed and nothing changed -/
theorem sim_grow {r q} (add : Nat) (m : Option (Nat → Byte)) (h : Sim r q)
    (hadd : 0 < add) (hb : r.used + add ≤ 9223372036854775808) :
    ∃ r' c, grow r add m = some (r', c) ∧ Sim r' q ∧ r'.used = r.used ∧
      ((c = 0 ∧ r.used + add ≤ r'.size) ∨ (c = -ENOMEM ∧ m = none ∧ r' = r)) := by
  have hsz := h.size_le
  have hu := h.used
  unfold grow
  have hl : (r.size + W64 - r.used) % W64 = r.size - r.used := by simp only [W64]; omega
  have hn : (r.used + add) % W64 = r.used + add := by simp only [W64]; omega
  rw [hl, hn]
  by_cases hc : r.size - r.used ≥ add
  · rw [if_pos hc]
    exact ⟨r, 0, rfl, h, rfl, Or.inl ⟨rfl, by omega⟩⟩
  · rw [if_neg hc]
    simp only []
    rw [if_neg (by omega)]
    obtain ⟨k, hk, ha, hge, -⟩ := alignPow2_spec (u := if r.used + add < 4096 then 4096 else r.used + add)
      (by split <;> omega) (by split <;> omega)
    have hge' : r.used + add ≤ 2 ^ k := by split at hge <;> omega
    simp only [ha, Option.bind_eq_bind, Option.bind_some]
    rw [if_neg (by have : 0 < 2 ^ k := Nat.pow_pos (by decide); omega)]
    cases m with
    | none => exact ⟨r, -ENOMEM, rfl, h, rfl, Or.inr ⟨rfl, rfl, rfl⟩⟩
    | some junk =>
      obtain ⟨r', e, hs, h1, h2⟩ := sim_resize junk h hk (by omega)
      exact ⟨r', 0, e, hs, h2, Or.inl ⟨rfl, by omega⟩⟩

theorem sim_push {r q} (d : List Byte) (m : Option (Nat → Byte)) (h : Sim r q)
    (hb : q.length + d.length ≤ 9223372036854775808) :
    ∃ r' c, push r d m = some (r', c) ∧
      ((c = 0 ∧ Sim r' (q ++ d)) ∨ (c = -ENOMEM ∧ m = none ∧ r' = r)) := by
  unfold push
  by_cases h0 : d.length = 0
  · simp only [if_pos h0]
    have : d = [] := List.eq_nil_of_length_eq_zero h0
    exact ⟨r, 0, rfl, Or.inl ⟨rfl, by simpa [this] using h⟩⟩
  · simp only [if_neg h0]
    obtain ⟨r', c, e, hs, hu, hc⟩ := sim_grow d.length m h (by omega) (by rw [← h.qlen]; omega)
    rw [e]
    simp only [Option.bind_eq_bind, Option.bind_some]
    rcases hc with ⟨rfl, hroom⟩ | ⟨rfl, hm, rfl⟩
    · have hsz := hs.size_le
      obtain ⟨h1, h2, h3, h4, h5, h6⟩ := hs
      rw [← h5] at h4
      rw [if_neg (by decide)]
      rcases h2 with h2 | ⟨k, hk, h2⟩
      · omega
      have hp : 0 < 2 ^ k := Nat.pow_pos (by decide)
      have hpos : mask r' (r'.start + r'.used) =
          if r'.start + r'.used < r'.size then r'.start + r'.used else r'.start + r'.used - r'.size := by
        rw [mask_eq hk h2 (by simp only [W64]; omega)]
        exact mod_wrap (by omega)
      generalize hP : mask r' (r'.start + r'.used) = pos at *
      have hl : (r'.size + W64 - pos) % W64 = r'.size - pos := by
        simp only [W64]; split at hpos <;> omega
      have hus : (r'.used + d.length) % W64 = r'.used + d.length := by simp only [W64]; omega
      simp only [hl, hus]
      have key : ∀ buf : List Byte, buf.length = r'.size →
          (∀ i, i < r'.used + d.length → (q ++ d)[i]? = buf[idx r' i]?) →
          Sim { r' with buf := buf, used := r'.used + d.length } (q ++ d) := by
        intro buf hb he
        constructor
        · exact hb
        · exact Or.inr ⟨k, hk, h2⟩
        · exact h3
        · show r'.used + d.length ≤ r'.size; omega
        · simp [h5]
        · intro i hi; exact he i hi
      by_cases hc : r'.size - pos ≥ d.length
      · rw [if_pos hc]
        obtain ⟨B, e1, l1, g1⟩ := wr_ex (b := r'.buf) (i := pos) (d := d)
          (by split at hpos <;> omega)
        simp only [e1, Option.bind_some]
        refine ⟨_, _, rfl, Or.inl ⟨rfl, key _ (by rw [l1, h1]) ?_⟩⟩
        intro i hi
        rw [g1, List.getElem?_append, h5]
        simp only [idx]
        have := h6 i
        simp only [idx] at this
        clear key g1 e1 hl h6 hus
        grind
      · rw [if_neg hc]
        obtain ⟨d1, e1, l1, g1⟩ := rd_ex (b := d) (i := 0) (n := r'.size - pos) (by omega)
        obtain ⟨B, e2, l2, g2⟩ := wr_ex (b := r'.buf) (i := pos) (d := d1)
          (by rw [l1]; split at hpos <;> omega)
        obtain ⟨d2, e3, l3, g3⟩ := rd_ex (b := d) (i := r'.size - pos)
          (n := d.length - (r'.size - pos)) (by omega)
        obtain ⟨B', e4, l4, g4⟩ := wr_ex (b := B) (i := 0) (d := d2) (by rw [l2, l3]; omega)
        simp only [e1, e2, e3, e4, Option.bind_some]
        refine ⟨_, _, rfl, Or.inl ⟨rfl, key _ (by rw [l4, l2, h1]) ?_⟩⟩
        intro i hi
        rw [g4, g2, List.getElem?_append, h5, l3, l1, g3, g1]
        have := h6 i
        simp only [idx] at *
        clear key g1 g2 g3 g4 e1 e2 e3 e4 hl h6 hus
        grind
    · rw [if_pos (by decide)]
      exact ⟨r', _, rfl, Or.inr ⟨rfl, hm, rfl⟩⟩

theorem sim_observe {r q} (h : Sim r q) : observe r = some q ∧ (peek r).length ≤ 2 ∧
    (∀ p ∈ peek r, 0 < p.2 ∧ p.1 + p.2 ≤ r.size) := by
  have hsz := h.size_le
  obtain ⟨h1, h2, h3, h4, h5, h6⟩ := h
  have e1 : (r.start + r.used) % W64 = r.start + r.used := by simp only [W64]; omega
  have e2 : (r.size + W64 - r.start) % W64 = r.size - r.start := by simp only [W64]; omega
  unfold observe peek
  rw [e1, e2]
  by_cases hu : r.used = 0
  · simp only [hu, if_true]; refine ⟨?_, by simp, by simp⟩; exact congrArg some (List.eq_nil_of_length_eq_zero (by omega)).symm
  · rw [if_neg hu]
    by_cases hw : r.start + r.used ≤ r.size
    · rw [if_pos hw]
      obtain ⟨d, e1, l1, g1⟩ := rd_ex (b := r.buf) (i := r.start) (n := r.used) (by omega)
      simp only [List.foldr, e1, Option.bind_eq_bind, Option.bind_some, List.append_nil]
      refine ⟨?_, by simp, by simp; omega⟩
      show some d = some q
      congr 1
      apply List.ext_getElem?
      intro i
      rw [g1]
      have := h6 i
      simp only [idx] at this
      clear g1 e1 h6
      grind
    · rw [if_neg hw]
      have e3 : (r.used + W64 - (r.size - r.start)) % W64 = r.used - (r.size - r.start) := by
        simp only [W64]; omega
      rw [e3]
      obtain ⟨d, e1, l1, g1⟩ := rd_ex (b := r.buf) (i := r.start) (n := r.size - r.start) (by omega)
      obtain ⟨d', e4, l4, g4⟩ := rd_ex (b := r.buf) (i := 0) (n := r.used - (r.size - r.start)) (by omega)
      simp only [List.foldr, e1, e4, Option.bind_eq_bind, Option.bind_some, List.append_nil]
      refine ⟨?_, by simp, by simp; omega⟩
      show some (d ++ d') = some q
      congr 1
      apply List.ext_getElem?
      intro i
      rw [List.getElem?_append, g1, g4]
      have := h6 i
      simp only [idx] at this
      clear g1 e1 h6 g4 e4
      grind

theorem sim_copy {r q} (n : Nat) (h : Sim r q) : copy r n = some (q.take n) := by
  have hsz := h.size_le
  obtain ⟨h1, h2, h3, h4, h5, h6⟩ := h
  have e2 : (r.size + W64 - r.start) % W64 = r.size - r.start := by simp only [W64]; omega
  unfold copy
  simp only [e2]
  generalize hm : (if n > r.used then r.used else n) = m
  have hq : q.take n = q.take m := by
    split at hm
    · subst hm; rw [List.take_of_length_le (by omega), List.take_of_length_le (by omega)]
    · rw [hm]
  have hmu : m ≤ r.used := by split at hm <;> omega
  rw [hq]
  clear hq hm
  by_cases h0 : m > 0
  · rw [if_pos h0]
    by_cases hl : m ≤ r.size - r.start
    · rw [if_pos hl]
      obtain ⟨d, e1, l1, g1⟩ := rd_ex (b := r.buf) (i := r.start) (n := m) (by omega)
      rw [e1]
      congr 1
      apply List.ext_getElem?
      intro i
      rw [g1, List.getElem?_take]
      have := h6 i
      simp only [idx] at this
      clear g1 e1 h6
      grind
    · rw [if_neg hl]
      obtain ⟨d, e1, l1, g1⟩ := rd_ex (b := r.buf) (i := r.start) (n := r.size - r.start) (by omega)
      obtain ⟨d', e4, l4, g4⟩ := rd_ex (b := r.buf) (i := 0) (n := m - (r.size - r.start)) (by omega)
      simp only [e1, e4, Option.bind_eq_bind, Option.bind_some]
      show some (d ++ d') = _
      congr 1
      apply List.ext_getElem?
      intro i
      rw [List.getElem?_append, g1, g4, List.getElem?_take]
      have := h6 i
      simp only [idx] at this
      clear g1 e1 h6 g4 e4
      grind
  · rw [if_neg h0]
    have : m = 0 := by omega
    simp [this]

/-- one call: defined, documented code, simulates the ideal queue -/
theorem sim_step {r q} (o : Op) (h : Sim r q) (hb : q.length + Spec.adds o ≤ 9223372036854775808) :
    ∃ r' c, step r o = some (r', c) ∧ Spec.codeOk o c ∧ Sim r' (Spec.after1 q o c) := by
  cases o with
  | push d m =>
    obtain ⟨r', c, e, hc⟩ := sim_push d m h hb
    refine ⟨r', c, e, ?_⟩
    rcases hc with ⟨rfl, hs⟩ | ⟨rfl, hm, rfl⟩
    · exact ⟨Or.inl rfl, by simpa [Spec.after1] using hs⟩
    · exact ⟨Or.inr ⟨rfl, hm⟩, by simpa [Spec.after1, ENOMEM] using h⟩
  | pull n => exact ⟨_, 0, rfl, rfl, sim_pull n h⟩
  | flush => exact ⟨_, 0, rfl, rfl, sim_flush h⟩
  | clear => exact ⟨_, 0, rfl, rfl, sim_zero⟩

theorem after1_length (q : List Byte) (o : Op) (c : Int) :
    (Spec.after1 q o c).length ≤ q.length + Spec.adds o := by
  cases o <;> simp [Spec.after1, Spec.adds]
  split <;> simp

theorem sim_run (ops : List Op) : ∀ {r q}, Sim r q →
    q.length + (ops.map Spec.adds).sum ≤ 9223372036854775808 →
    ∃ r' cs, run r ops = some (r', cs) ∧ cs.length = ops.length ∧
      (∀ p ∈ ops.zip cs, Spec.codeOk p.1 p.2) ∧ Sim r' (Spec.after q (ops.zip cs)) := by
  induction ops with
  | nil => intro r q h _; exact ⟨r, [], rfl, rfl, by simp, by simpa [Spec.after] using h⟩
  | cons o os ih =>
    intro r q h hb
    simp only [List.map_cons, List.sum_cons] at hb
    obtain ⟨r1, c, e1, hc, h1⟩ := sim_step o h (by omega)
    have := after1_length q o c
    obtain ⟨r2, cs, e2, hl, hcs, h2⟩ := ih h1 (by omega)
    refine ⟨r2, c :: cs, by simp [run, e1, e2], by simp [hl], ?_, by simpa [Spec.after] using h2⟩
    intro p hp
    simp only [List.zip_cons_cons, List.mem_cons] at hp
    rcases hp with rfl | hp
    · exact hc
    · exact hcs p hp

end Verif.Ring
