import Verif.Proof.HtableSim
/-! Growth, rehash, common bits, and the overall invariant. -/
namespace Verif.Htable

section
variable {rehash : W → W} {K : Nat}

theorem not_ent_of_empty {A : ATab} {k : Nat} (h : A k = .empty) : (A k).isEnt = false := by rw [h]; rfl
theorem ent_nonempty {A : ATab} {k : Nat} (h : (A k).isEnt = true) : A k ≠ .empty := by
  intro e; rw [e] at h; simp [Slot.isEnt, Slot.ptr] at h
theorem ptr_none {A : ATab} {k : Nat} (h : (A k).isEnt = false) : (A k).ptr = none := by
  simpa [Slot.isEnt] using h

/-- adding an element to a table with an empty slot -/
theorem htAdd_inv {ht : HT} {A : ATab} (L : Lay rehash K ht A)
    (P : PInv A (2 ^ ht.bits) (fun p => home ht (rehash p))) {p : W} (hg : Good ht K p)
    (hu : used A (2 ^ ht.bits) < 2 ^ ht.bits) :
    ∃ t B, htAdd ht p (rehash p) = some (ht.withTab t) ∧ Lay rehash K (ht.withTab t) B ∧
      PInv B (2 ^ ht.bits) (fun p => home ht (rehash p)) ∧
      (contents B (2 ^ ht.bits)).Perm (p :: contents A (2 ^ ht.bits)) ∧
      used B (2 ^ ht.bits) ≤ used A (2 ^ ht.bits) + 1 := by
  obtain ⟨k, hk, he⟩ := exists_empty hu
  obtain ⟨j, t, hj, h1, h2, e, L'⟩ := htAdd_spec L hg ⟨k, hk, not_ent_of_empty he⟩
  refine ⟨t, _, e, L', ?_, ?_, used_upd_le _ _ _ _⟩
  · exact PInv.add (home := fun p => home ht (rehash p)) P hj (fun i hi => ent_nonempty (h2 i hi))
  · exact contents_set (Nat.mod_lt _ (pos_pow _)) (ptr_none h1) p

/-- re-adding the entries of an old table into a bigger one -/
theorem readd_spec : ∀ (old : List W) {ht : HT} {A : ATab} (ps : List W), Lay rehash K ht A →
    PInv A (2 ^ ht.bits) (fun p => home ht (rehash p)) →
    (old.filter isValid).map (rawPtr ht) = ps → (∀ p ∈ ps, Good ht K p) →
    used A (2 ^ ht.bits) + ps.length < 2 ^ ht.bits + 1 →
    ∃ t B, readd rehash ht old = some (ht.withTab t) ∧ Lay rehash K (ht.withTab t) B ∧
      PInv B (2 ^ ht.bits) (fun p => home ht (rehash p)) ∧
      (contents B (2 ^ ht.bits)).Perm (ps ++ contents A (2 ^ ht.bits)) ∧
      used B (2 ^ ht.bits) ≤ used A (2 ^ ht.bits) + ps.length := by
  intro old
  induction old with
  | nil =>
    intro ht A ps L P hps hg hu
    obtain ⟨t, h1, h2, h3⟩ := L.tab
    simp at hps
    subst hps
    have e : ht = ht.withTab t := by
      cases ht; simp [HT.withTab] at h1 ⊢; exact h1
    refine ⟨t, A, by rw [readd, ← e], by rw [← e]; exact L, P, by simp, by simp⟩
  | cons e old ih =>
    intro ht A ps L P hps hg hu
    rw [readd]
    by_cases hv : isValid e = true
    · rw [if_pos hv]
      rw [List.filter_cons_of_pos hv, List.map_cons] at hps
      cases ps with
      | nil => simp at hps
      | cons q qs =>
        obtain ⟨hq, hqs⟩ := List.cons.inj hps
        rw [hq]
        simp only [List.length_cons] at hu
        obtain ⟨t, B, e1, L1, P1, c1, u1⟩ := htAdd_inv L P (hg q (by simp)) (by omega)
        rw [e1]
        simp only [Option.bind_eq_bind, Option.bind_some]
        obtain ⟨t2, B2, e2, L2, P2, c2, u2⟩ := ih (ht := ht.withTab t) (A := B) qs L1 P1 hqs
          (fun p hp => hg p (by simp [hp])) (by show used B (2 ^ ht.bits) + _ < 2 ^ ht.bits + 1; omega)
        refine ⟨t2, B2, e2, L2, P2, ?_, ?_⟩
        · refine c2.trans ?_
          refine (c1.append_left qs).trans ?_
          simp only [List.cons_append]
          exact List.perm_middle
        · simp only [List.length_cons]
          have : used B2 (2 ^ ht.bits) ≤ used B (2 ^ ht.bits) + qs.length := u2
          omega
    · rw [if_neg hv]
      rw [List.filter_cons_of_neg hv] at hps
      exact ih ps L P hps hg hu

theorem map_range_eq {t : List W} {n : Nat} {f : Nat → W} (hl : t.length = n)
    (h : ∀ k < n, t[k]? = some (f k)) : t = (List.range n).map f := by
  apply List.ext_getElem?
  intro k
  by_cases hk : k < n
  · rw [h k hk]; simp [hk]
  · rw [List.getElem?_eq_none (by omega), List.getElem?_eq_none (by simp; omega)]

theorem filter_contents {ht : HT} {A : ATab} (L : Lay rehash K ht A) {ht' : HT}
    (h1 : ht'.mask = ht.mask) (h2 : ht'.cbits = ht.cbits) :
    ∀ m ≤ 2 ^ ht.bits, ((((List.range m).map fun k => encS rehash ht k (A k)).filter isValid).map (rawPtr ht'))
      = contents A m := by
  intro m
  induction m with
  | zero => intro _; rfl
  | succ m ih =>
    intro hm
    rw [List.range_succ, List.map_append, List.filter_append, List.map_append, ih (by omega), contents_succ]
    congr 1
    have hv := L.valid_iff (k := m) (by omega)
    cases hA : A m with
    | empty => simp [hA, encS, not_valid_zero, Slot.ptr]
    | del => simp [hA, encS, not_valid_one, Slot.ptr]
    | ent p =>
      rw [hA] at hv
      have hr : rawPtr ht' (encS rehash ht m (.ent p)) = p := by
        unfold rawPtr
        rw [h1, h2]
        exact enc_raw L (L.good m (by omega) p hA).2.1 m (rehash p)
      simp only [List.map_cons, List.map_nil, hA]
      rw [List.filter_cons_of_pos (by rw [hv]; rfl)]
      simp [hr, Slot.ptr]

theorem visit_contents {ht : HT} {A : ATab} (L : Lay rehash K ht A) :
    visit ht = contents A (2 ^ ht.bits) := by
  obtain ⟨t, h1, h2, h3⟩ := L.tab
  unfold visit
  rw [h1]
  simp only
  rw [map_range_eq h2 h3]
  exact filter_contents L rfl rfl _ (Nat.le_refl _)

theorem perfect_new_mask {ht : HT} (h : ht.perfect &&& ht.mask = ht.perfect) (x : W)
    (hx : x = if ht.perfect = 0#64 ∧ ht.mask ≠ 0#64 then lowBit ht.mask 64 0 else ht.perfect) :
    x &&& ht.mask = x := by
  subst hx
  split
  · exact lowBit_mask _ _ _ (by omega)
  · exact h

def newT (ht : HT) : HT := { ht with
      bits := ht.bits + 1
      max := 3 * 2 ^ (ht.bits + 1) / 4
      maxWithDeleted := 9 * 2 ^ (ht.bits + 1) / 10
      perfect := if ht.perfect = 0#64 ∧ ht.mask ≠ 0#64 then lowBit ht.mask 64 0 else ht.perfect
      table := some (List.replicate (2 ^ (ht.bits + 1)) 0#64) }

theorem newT_lay {ht : HT} (hK : 1 ≤ K) (hb : ht.bits + 1 < 31) (hc : ht.cbits &&& ht.mask = ht.cbits)
    (hp : ht.perfect &&& ht.mask = ht.perfect) : Lay rehash K (newT ht) (fun _ => .empty) := by
  refine ⟨hK, hb, ⟨_, rfl, ?_, ?_⟩, hc, perfect_new_mask hp _ rfl, ?_⟩
  · simp [newT]
  · intro k hk
    have hk' : k < 2 ^ (ht.bits + 1) := hk
    simp [encS, hk']
  · intro k _ p hp; simp at hp

theorem contents_empty (n : Nat) : contents (fun _ => .empty) n = [] := by
  induction n with
  | zero => rfl
  | succ n ih => rw [contents_succ, ih]; rfl

theorem used_empty (n : Nat) : used (fun _ => .empty) n = 0 := by
  induction n with
  | zero => rfl
  | succ n ih => rw [used_succ, ih]; rfl

theorem double_spec {ht : HT} {A : ATab} (L : Lay rehash K ht A) (hb : ht.bits + 1 < 31) :
    ∃ t B, doubleTable rehash true ht = some ({ (newT ht).withTab t with deleted := 0 }, true) ∧
      Lay rehash K { (newT ht).withTab t with deleted := 0 } B ∧
      PInv B (2 ^ (ht.bits + 1)) (fun p => home (newT ht) (rehash p)) ∧
      (contents B (2 ^ (ht.bits + 1))).Perm (contents A (2 ^ ht.bits)) ∧
      used B (2 ^ (ht.bits + 1)) ≤ (contents A (2 ^ ht.bits)).length := by
  obtain ⟨t, h1, h2, h3⟩ := L.tab
  have L0 := newT_lay (rehash := rehash) L.hK hb L.cm L.pm
  have hlen : (contents A (2 ^ ht.bits)).length ≤ 2 ^ ht.bits :=
    Nat.le_trans (contents_le_used _ _) (used_le _ _)
  have hps : (t.filter isValid).map (rawPtr (newT ht)) = contents A (2 ^ ht.bits) := by
    rw [map_range_eq h2 h3]
    exact filter_contents L (ht' := newT ht) rfl rfl _ (Nat.le_refl _)
  have hgood : ∀ p ∈ contents A (2 ^ ht.bits), Good (newT ht) K p := by
    intro p hp
    obtain ⟨k, hk, e⟩ := mem_contents.1 hp
    exact L.good k hk p e
  have hpow : 2 ^ (newT ht).bits = 2 * 2 ^ ht.bits := by
    show 2 ^ (ht.bits + 1) = _
    rw [Nat.pow_succ, Nat.mul_comm]
  obtain ⟨t2, B, e, L1, P1, c1, u1⟩ := readd_spec t (ht := newT ht) (A := fun _ => .empty)
    (contents A (2 ^ ht.bits)) L0 (fun k _ p hp => by simp at hp) hps hgood
    (by rw [used_empty, hpow]; omega)
  refine ⟨t2, B, ?_, ?_, P1, ?_, ?_⟩
  · unfold doubleTable
    rw [if_neg (by omega), if_neg (by simp), h1]
    show (do
      let ht2 ← readd rehash (newT ht) t
      return (({ ht2 with deleted := 0 } : HT), true)) = _
    rw [e]
    rfl
  · exact ⟨L1.hK, L1.bits, L1.tab, L1.cm, L1.pm, L1.good⟩
  · rw [contents_empty, List.append_nil] at c1; exact c1
  · rw [used_empty] at u1
    show used B (2 ^ (newT ht).bits) ≤ _
    simpa using u1

theorem findStart_spec {ht : HT} {A : ATab} (L : Lay rehash K ht A)
    (hu : used A (2 ^ ht.bits) < 2 ^ ht.bits) :
    ∃ s < 2 ^ ht.bits, A s = .empty ∧ findStart ht.tab = some s := by
  obtain ⟨k, hk, he⟩ := exists_empty hu
  have key : ∀ (l : List W) (k : Nat), l[k]? = some 0#64 → ∃ s, findStart l = some s ∧ l[s]? = some 0#64 ∧ s ≤ k := by
    intro l
    induction l with
    | nil => intro k h; simp at h
    | cons e l ih =>
      intro k h
      rw [findStart]
      by_cases h0 : e = 0#64
      · exact ⟨0, by rw [if_pos h0], by simp [h0], by omega⟩
      · rw [if_neg h0]
        cases k with
        | zero => simp at h; exact absurd h h0
        | succ k =>
          obtain ⟨s, h1, h2, h3⟩ := ih k (by simpa using h)
          exact ⟨s + 1, by simp [h1], by simpa using h2, by omega⟩
  obtain ⟨s, h1, h2, h3⟩ := key ht.tab k (by rw [L.get hk, he]; rfl)
  have hs : s < 2 ^ ht.bits := by omega
  refine ⟨s, hs, ?_, h1⟩
  rw [L.get hs] at h2
  exact (L.zero_iff hs).1 (Option.some.inj h2)

theorem rehashLoop_spec {s : Nat} : ∀ (m i : Nat) {ht : HT} {A : ATab}, Lay rehash K ht A →
    i + m = 2 ^ ht.bits → RInv A (2 ^ ht.bits) s i (fun p => home ht (rehash p)) →
    ∃ t B, rehashLoop rehash s m i ht = some (ht.withTab t) ∧ Lay rehash K (ht.withTab t) B ∧
      RInv B (2 ^ ht.bits) s (2 ^ ht.bits) (fun p => home ht (rehash p)) ∧
      (contents B (2 ^ ht.bits)).Perm (contents A (2 ^ ht.bits)) := by
  intro m
  induction m with
  | zero =>
    intro i ht A L hi R
    obtain ⟨t, h1, h2, h3⟩ := L.tab
    have e : ht = ht.withTab t := by
      cases ht; simp [HT.withTab] at h1 ⊢; exact h1
    refine ⟨t, A, by rw [rehashLoop, ← e], by rw [← e]; exact L, ?_, List.Perm.refl _⟩
    have : i = 2 ^ ht.bits := by omega
    rw [← this] at R ⊢; exact R
  | succ m ih =>
    intro i ht A L hi R
    have hin : i < 2 ^ ht.bits := by omega
    have hk := Nat.mod_lt (s + i) (pos_pow ht.bits)
    rw [rehashLoop, L.idx]
    simp only [Option.bind_eq_bind, Option.bind_some, and_mask, Nat.add_comm i s, L.get hk, L.zero_iff hk,
      L.one_iff hk]
    by_cases h0 : A ((s + i) % 2 ^ ht.bits) = .empty
    · rw [if_pos h0]
      exact ih (i + 1) L (by omega) (R.skip (by rw [h0]; simp) (fun p hp => by rw [h0] at hp; simp at hp))
    · rw [if_neg h0]
      by_cases h1 : A ((s + i) % 2 ^ ht.bits) = .del
      · rw [if_pos h1]
        obtain ⟨t, e, L1⟩ := L.set hk (s := .empty) (fun p hp => by simp at hp)
        simp only [encS] at e
        rw [e]
        simp only [Option.bind_some]
        obtain ⟨t2, B, e2, L2, R2, c2⟩ := ih (i + 1) L1 (by show i + 1 + m = 2 ^ ht.bits; omega) (R.clear hin)
        refine ⟨t2, B, e2, L2, R2, ?_⟩
        refine c2.trans ?_
        show (contents _ (2 ^ ht.bits)).Perm _
        rw [contents_same (by rw [h1]; rfl) rfl]
      · rw [if_neg h1]
        obtain ⟨p, hp⟩ : ∃ p, A ((s + i) % 2 ^ ht.bits) = .ent p := by
          cases h : A ((s + i) % 2 ^ ht.bits) with
          | empty => exact absurd h h0
          | del => exact absurd h h1
          | ent p => exact ⟨p, rfl⟩
        rw [hp]
        simp only [encS]
        have hg := L.good _ hk p hp
        have hep := enc_perfect (q := p) L.pm (hb_perfect ht (rehash p))
        by_cases hpf : encE ht ((s + i) % 2 ^ ht.bits) (rehash p) p &&& ht.perfect = 0#64
        · simp only [hpf, if_true, enc_raw L hg.2.1]
          obtain ⟨t, e, L1⟩ := L.set hk (s := .empty) (fun p hp => by simp at hp)
          simp only [encS] at e
          rw [e]
          simp only [Option.bind_some]
          have hself : upd A ((s + i) % 2 ^ ht.bits) .empty ((s + i) % 2 ^ ht.bits) = .empty := by simp [upd]
          obtain ⟨j, t1, hj, f1, f2, e1, L2⟩ := htAdd_spec (p := p) L1 hg ⟨_, hk, not_ent_of_empty hself⟩
          rw [e1]
          simp only [Option.bind_some]
          obtain ⟨hp', hle, hhome⟩ := R.todo i hin (Nat.le_refl _) p hp
          have hhome' : home (ht.withTab t) (rehash p) = (s + hp') % 2 ^ ht.bits := hhome
          have hbits : (ht.withTab t).bits = ht.bits := rfl
          rw [hbits] at hj f1 f2 L2
          have hjle : hp' + j ≤ i := by
            apply Classical.byContradiction
            intro hgt
            have := f2 (i - hp') (by omega)
            rw [hhome', Nat.mod_add_mod, Nat.add_assoc, show hp' + (i - hp') = i by omega, hself] at this
            simp [Slot.isEnt, Slot.ptr] at this
          have R1 := (R.clear hin).add hin (p := p) (hp := hp') hle hhome (j := j) hjle
            (fun q hq => ent_nonempty (f2 q hq))
          obtain ⟨t2, B, e2, L3, R2, c2⟩ := ih (i + 1) L2 (by show i + 1 + m = 2 ^ ht.bits; omega) R1
          refine ⟨t2, B, e2, L3, R2, ?_⟩
          refine c2.trans ?_
          show (contents _ (2 ^ ht.bits)).Perm _
          refine (contents_set (Nat.mod_lt _ (pos_pow _)) (ptr_none f1) p).trans ?_
          exact (contents_clear hk hp .empty rfl).symm
        · simp only [hpf, if_false]
          refine ih (i + 1) L (by omega) (R.skip (by rw [hp]; simp) ?_)
          intro q hq
          rw [hp] at hq
          obtain rfl : p = q := by simpa using hq
          apply Classical.byContradiction
          intro hne
          apply hpf
          unfold encE flag
          rw [if_neg (Ne.symm hne)]
          exact hep.1

theorem rehash_spec {ht : HT} {A : ATab} (L : Lay rehash K ht A)
    (P : PInv A (2 ^ ht.bits) (fun p => home ht (rehash p)))
    (hu : used A (2 ^ ht.bits) < 2 ^ ht.bits) :
    ∃ t B, rehashTable rehash ht = some { ht.withTab t with deleted := 0 } ∧
      Lay rehash K { ht.withTab t with deleted := 0 } B ∧
      PInv B (2 ^ ht.bits) (fun p => home ht (rehash p)) ∧
      (contents B (2 ^ ht.bits)).Perm (contents A (2 ^ ht.bits)) ∧
      used B (2 ^ ht.bits) = (contents A (2 ^ ht.bits)).length := by
  obtain ⟨s, hs, he, hf⟩ := findStart_spec L hu
  have R := RInv.start P hs he (fun p => home_lt _)
  obtain ⟨t, B, e, L1, R1, c1⟩ := rehashLoop_spec (2 ^ ht.bits) 0 L (by omega) R
  obtain ⟨P1, hd⟩ := R1.finish (pos_pow _)
  refine ⟨t, B, ?_, ⟨L1.hK, L1.bits, L1.tab, L1.cm, L1.pm, L1.good⟩, P1, c1, ?_⟩
  · unfold rehashTable
    rw [hf]
    simp only [Option.bind_eq_bind, Option.bind_some, e]
    rfl
  · rw [used_eq_contents hd, c1.length_eq]

/-- `update_common` keeps the abstract table -/
theorem update_spec {ht : HT} {A : ATab} (L : Lay rehash K ht A) {p : W} (hp : p.getLsbD K = true)
    (htop : ∀ i > K, p.getLsbD i = false)
    (hel : ht.elems = 0 → contents A (2 ^ ht.bits) = []) (hne : ht.elems ≠ 0 → ht.mask.getLsbD K = false) :
    Lay rehash K (updateCommon ht p) A ∧ Good (updateCommon ht p) K p := by
  have hK63 : K ≤ 63 := by have := BitVec.lt_of_getLsbD hp; omega
  obtain ⟨t, h1, h2, h3⟩ := L.tab
  unfold updateCommon
  by_cases h0 : ht.elems = 0
  · rw [if_pos h0]
    simp only [topBit_eq hp htop 63 hK63]
    have hr := reset_bits L.hK hK63
    have hA : ∀ k < 2 ^ ht.bits, ∀ q, A k ≠ .ent q := by
      intro k hk q e
      have : q ∈ contents A (2 ^ ht.bits) := mem_contents.2 ⟨k, hk, e⟩
      rw [hel h0] at this
      simp at this
    refine ⟨⟨L.hK, L.bits, ⟨t, h1, h2, ?_⟩, ?_, hr.2, ?_⟩, hp, rfl, hr.1⟩
    · intro k hk
      have hk' : k < 2 ^ ht.bits := hk
      rw [h3 k hk']
      cases hs : A k with
      | empty => rfl
      | del => rfl
      | ent q => exact absurd hs (hA k hk' q)
    · show (p &&& _) &&& _ = p &&& _
      rw [BitVec.and_assoc, BitVec.and_self]
    · intro k hk q e
      exact absurd e (hA k hk q)
  · rw [if_neg h0]
    have hm := hne h0
    have hmask' : (ht.mask &&& ~~~(ht.cbits ^^^ (p &&& ht.mask))).getLsbD K = false := by
      simp [hm]
    refine ⟨⟨L.hK, L.bits, ⟨_, by rw [h1]; rfl, by simpa using h2, ?_⟩, and_sub L.cm, and_sub L.pm, ?_⟩, hp,
      update_common_new L.cm, hmask'⟩
    · intro k hk
      have hk' : k < 2 ^ ht.bits := hk
      rw [List.getElem?_map, h3 k hk']
      simp only [Option.map_some, Option.some.injEq, L.valid_iff hk']
      cases hs : A k with
      | empty => rfl
      | del => rfl
      | ent q =>
        have hg := L.good k hk' q hs
        show (encE ht k (rehash q) q &&& ~~~_) ||| _ = _
        unfold encS encE makeHval
        rw [update_enc hg.2.1 rfl]
        congr 1
        have hf : ∀ d : W, (hashBits ht (rehash q) ||| flag ht k (rehash q)) &&& ~~~d =
            (hashBits ht (rehash q) &&& ~~~d) ||| (flag ht k (rehash q) &&& ~~~d) := by
          intro d
          apply BitVec.eq_of_getLsbD_eq
          intro i hi
          simp only [BitVec.getLsbD_and, BitVec.getLsbD_or]
          rw [Bool.and_or_distrib_right]
        rw [hf]
        congr 1
        · unfold hashBits
          exact hash_update
        · unfold flag home
          split
          · rfl
          · simp
    · intro k hk q e
      have hg := L.good k hk q e
      exact ⟨hg.1, update_common_bits hg.2.1, hmask'⟩

end
end Verif.Htable
