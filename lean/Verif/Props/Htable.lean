import Verif.Proof.HtableInv
/-!
# C11, C12: the hash table is a bag of pointers

The code loses elements when two stored pointers differ only in the highest bit set in the one
inserted first (`htable_loses_element`): the slot word of the other one may then be 0 or 1, that
is "empty" or "deleted".  The general theorems therefore carry the hypothesis that all pointers
handed to the table have the same highest set bit (as all user space heap and mmap addresses of
x86-64 do), and end in `_partial`.
-/
namespace Verif.Htable

/-- **C11, C12.** For every hash function, every sequence of calls (with allocation failures at
arbitrary places), every set of pointers with a common highest bit: no call touches memory outside
the table, every probe loop ends, and all results are those of a bag of pointers: a lookup or
removal fails exactly if no element in the bag satisfies the comparison, and otherwise returns one
that does; iterating and visiting list every element as often as it is stored; only a failing
allocation makes an insertion fail, and then nothing is lost.

Missing from the full claim: pointers with different highest bits (see the counterexample), and
more than 2^29 calls (`1 << bits` would exceed an `int`). -/
theorem htable_refines_bag_partial (rehash : W → W) (K : Nat) (hK : 1 ≤ K) (ops : List Op)
    (hlen : ops.length ≤ 2 ^ 29) (hlaw : ∀ o ∈ ops, Spec.Lawful rehash o)
    (htop : ∀ o ∈ ops, Spec.TopBit K o) :
    ∃ ht outs S, run rehash init ops = some (ht, outs) ∧ Spec.Steps [] ops outs S ∧
      ht.elems = S.length := by
  obtain ⟨ht, outs, S, h1, h2, h3⟩ := run_inv hK ops (.inl ⟨rfl, rfl⟩ : Inv rehash K init []) (by simpa using hlen) hlaw htop
  exact ⟨ht, outs, S, h1, h2, inv_elems h3⟩

/-- **C12.** A reachable table always has a free slot, so probing for a missing element ends;
and iterating it with `SHL_HTABLE_FOREACH` and `shl_htable_visit` gives the same elements, `elems`
of them. -/
theorem htable_iteration_partial (rehash : W → W) (K : Nat) (hK : 1 ≤ K) (ops : List Op)
    (hlen : ops.length ≤ 2 ^ 29) (hlaw : ∀ o ∈ ops, Spec.Lawful rehash o)
    (htop : ∀ o ∈ ops, Spec.TopBit K o) (ht : HT) (outs : List Out)
    (hr : run rehash init ops = some (ht, outs)) :
    0#64 ∈ ht.tab ∧ iterate ht = some (visit ht) ∧ (visit ht).length = ht.elems ∧
      ∃ S, Spec.Steps [] ops outs S ∧ (visit ht).Perm S := by
  obtain ⟨ht', outs', S, h1, h2, h3⟩ := run_inv hK ops (.inl ⟨rfl, rfl⟩ : Inv rehash K init []) (by simpa using hlen) hlaw htop
  rw [hr] at h1
  obtain ⟨rfl, rfl⟩ := Prod.mk.inj (Option.some.inj h1)
  obtain ⟨l, e, rfl⟩ := iterate_inv h3
  exact ⟨inv_free h3, e, by rw [(visit_inv h3).length_eq, inv_elems h3], S, h2, visit_inv h3⟩

/-- After inserting a set of elements (memory permitting) and removing nothing, an element is
found under its own key: the simplest consequence, spelled out. -/
theorem htable_insert_then_lookup_partial (rehash : W → W) (K : Nat) (hK : 1 ≤ K) (ps : List W)
    (hlen : ps.length < 2 ^ 29) (htop : ∀ p ∈ ps, 2 ^ K ≤ p.toNat ∧ p.toNat < 2 ^ (K + 1)) (q : W) :
    ∃ ht outs, run rehash init (ps.map (Op.insert true) ++ [.lookup (· = q) (rehash q)]) = some (ht, outs) ∧
      outs.getLast? = some (.found (if q ∈ ps then some q else none)) := by
  have hnz : ∀ p ∈ ps, p ≠ 0#64 := by
    rintro p hp rfl
    have := (htop _ hp).1
    have h2 := Nat.two_pow_pos K
    simp at this
  obtain ⟨ht, outs, S, h1, h2, _⟩ := htable_refines_bag_partial rehash K hK
    (ps.map (Op.insert true) ++ [.lookup (· = q) (rehash q)]) (by simp; omega)
    (by
      intro o ho
      rcases List.mem_append.1 ho with h | h
      · obtain ⟨p, hp, rfl⟩ := List.mem_map.1 h
        exact hnz p hp
      · rw [List.mem_singleton.1 h]
        intro c hc
        simp at hc
        rw [hc])
    (by
      intro o ho
      rcases List.mem_append.1 ho with h | h
      · obtain ⟨p, hp, rfl⟩ := List.mem_map.1 h
        exact htop p hp
      · rw [List.mem_singleton.1 h]
        trivial)
  refine ⟨ht, outs, h1, ?_⟩
  have key : ∀ (l : List W) (s : List W) (outs : List Out) (S : List W),
      Spec.Steps s (l.map (Op.insert true) ++ [.lookup (· = q) (rehash q)]) outs S →
      outs.getLast? = some (.found (if q ∈ l ∨ q ∈ s then some q else none)) := by
    intro l
    induction l with
    | nil =>
      intro s outs S h
      cases h with
      | cons h hs =>
        cases hs
        cases h with
        | found hc he =>
          simp at he
          subst he
          simp [hc]
        | notFound hn =>
          have : q ∉ s := fun hm => by simpa using hn q hm
          simp [this]
    | cons p l ih =>
      intro s outs S h
      cases h with
      | @cons _ _ r _ _ rs _ h hs =>
        have hne : rs ≠ [] := by
          rintro rfl
          cases l <;> cases hs
        cases h with
        | inserted =>
          have := ih _ _ _ hs
          rw [List.getLast?_cons_of_ne_nil hne, this]
          simp only [List.mem_cons]
          congr 3
          apply propext
          tauto
  have := key ps [] outs S h2
  rw [this]
  simp

/-- Counterexample to the unrestricted claim: 0x18 and 0x08 differ only in bit 4, both hash to 0.
Both insertions succeed, but the second element is stored as the word 0 and is lost. -/
theorem htable_loses_element :
    (run (fun _ => 0#64) init [.insert true 0x18#64, .insert true 0x08#64,
      .lookup (· = 0x08#64) 0#64, .iterate]).map (·.2) =
    some [.ok true, .ok true, .found none, .seen [0x18#64]] := by decide +kernel

/-- hypotheses of the theorems are met by a run that collides, grows, deletes, rehashes -/
example : ∀ o ∈ ([.insert true 0x1000#64, .insert true 0x1010#64, .insert false 0x1020#64,
    .remove (· = 0x1000#64) 7#64, .insert true 0x1020#64, .lookup (· = 0x1020#64) 7#64, .iterate] : List Op),
    Spec.Lawful (fun _ => 7#64) o ∧ Spec.TopBit 12 o := by
  intro o ho
  simp only [List.mem_cons, List.not_mem_nil, or_false] at ho
  rcases ho with rfl | rfl | rfl | rfl | rfl | rfl | rfl <;> simp [Spec.Lawful, Spec.TopBit]

example : (run (fun _ => 7#64) init [.insert true 0x1000#64, .insert true 0x1010#64, .insert false 0x1020#64,
    .remove (· = 0x1000#64) 7#64, .insert true 0x1020#64, .lookup (· = 0x1020#64) 7#64, .iterate]).map (·.2)
    = some [.ok true, .ok true, .ok true, .found (some 0x1000#64), .ok true,
      .found (some 0x1020#64), .seen [0x1020#64, 0x1020#64, 0x1010#64]] := by decide +kernel

end Verif.Htable
