import Verif.Proof.HtableOps
/-! The invariant of reachable tables, and each API call. -/
namespace Verif.Htable

structure TInv (rehash : W → W) (K : Nat) (ht : HT) (S : List W) (A : ATab) : Prop where
  lay : Lay rehash K ht A
  pinv : PInv A (2 ^ ht.bits) (fun p => home ht (rehash p))
  perm : (contents A (2 ^ ht.bits)).Perm S
  elems : ht.elems = S.length
  used : used A (2 ^ ht.bits) ≤ ht.elems + ht.deleted
  sum : ht.elems + ht.deleted ≤ ht.maxWithDeleted
  emax : ht.elems ≤ ht.max
  max : ht.max = 3 * 2 ^ ht.bits / 4
  maxwd : ht.maxWithDeleted = 9 * 2 ^ ht.bits / 10
  bits : 1 ≤ ht.bits
  mask : ht.mask.getLsbD K = false ∨ (ht.mask = BitVec.allOnes 64 ∧ ht.cbits = 0#64 ∧ ht.elems = 0)

def Inv (rehash : W → W) (K : Nat) (ht : HT) (S : List W) : Prop :=
  (ht = init ∧ S = []) ∨ ∃ A, TInv rehash K ht S A

section
variable {rehash : W → W} {K : Nat}

theorem pow_ge_two {b : Nat} (h : 1 ≤ b) : 2 ≤ 2 ^ b := by
  have : 2 ^ 1 ≤ 2 ^ b := Nat.pow_le_pow_right (by omega) h
  omega

/-- the last part of `htable_add` -/
theorem add_tail {ht : HT} {A : ATab} {S : List W} {p : W} (L : Lay rehash K ht A)
    (P : PInv A (2 ^ ht.bits) (fun p => home ht (rehash p)))
    (perm : (contents A (2 ^ ht.bits)).Perm S) (elems : ht.elems = S.length)
    (hused : used A (2 ^ ht.bits) ≤ ht.elems + ht.deleted)
    (sum : ht.elems + 1 + ht.deleted ≤ ht.maxWithDeleted) (emax : ht.elems + 1 ≤ ht.max)
    (max : ht.max = 3 * 2 ^ ht.bits / 4) (maxwd : ht.maxWithDeleted = 9 * 2 ^ ht.bits / 10)
    (bits : 1 ≤ ht.bits)
    (mask : ht.mask.getLsbD K = false ∨ (ht.mask = BitVec.allOnes 64 ∧ ht.cbits = 0#64 ∧ ht.elems = 0))
    (hp : p.getLsbD K = true) (htop : ∀ i > K, p.getLsbD i = false) :
    ∃ ht' A', (htAdd (if p &&& ht.mask ≠ ht.cbits then updateCommon ht p else ht) p (rehash p)).bind
        (fun h => some ({ h with elems := h.elems + 1 } : HT)) = some ht' ∧ TInv rehash K ht' (p :: S) A' := by
  have hp0 : p ≠ 0#64 := by rintro rfl; simp at hp
  -- after update_common
  obtain ⟨h2, e2, L2, G2, f1, f2, f3, f4, f5⟩ : ∃ h2, (if p &&& ht.mask ≠ ht.cbits then updateCommon ht p else ht) = h2 ∧
      Lay rehash K h2 A ∧ Good h2 K p ∧ h2.bits = ht.bits ∧ h2.elems = ht.elems ∧ h2.deleted = ht.deleted ∧
      h2.max = ht.max ∧ h2.maxWithDeleted = ht.maxWithDeleted := by
    by_cases hm : p &&& ht.mask ≠ ht.cbits
    · have hu := update_spec L hp htop (by
        intro h0
        rw [elems] at h0
        have := List.eq_nil_of_length_eq_zero h0
        rw [this] at perm
        exact perm.eq_nil) (by
        intro h0
        rcases mask with h | h
        · exact h
        · exact absurd h.2.2 h0)
      refine ⟨_, rfl, ?_⟩
      rw [if_pos hm]
      refine ⟨hu.1, hu.2, ?_⟩
      unfold updateCommon
      split <;> exact ⟨rfl, rfl, rfl, rfl, rfl⟩
    · refine ⟨_, rfl, ?_⟩
      rw [if_neg hm]
      simp only [ne_eq, Decidable.not_not] at hm
      refine ⟨L, ⟨hp, hm, ?_⟩, rfl, rfl, rfl, rfl, rfl⟩
      rcases mask with h | h
      · exact h
      · rw [h.1, h.2.1, BitVec.and_allOnes] at hm
        exact absurd hm hp0
  rw [e2]
  have hbits : 2 ^ h2.bits = 2 ^ ht.bits := by rw [f1]
  have hhome : (fun p => home h2 (rehash p)) = (fun p => home ht (rehash p)) := by
    funext q; unfold home; rw [f1]
  have hx := pow_ge_two bits
  obtain ⟨t, B, e, L3, P3, c3, u3⟩ := htAdd_inv (ht := h2) L2 (by rw [hbits, hhome]; exact P) G2
    (by rw [hbits]; omega)
  rw [e]
  refine ⟨_, B, rfl, ?_⟩
  rw [hbits] at P3 c3 u3
  refine ⟨⟨L3.hK, L3.bits, L3.tab, L3.cm, L3.pm, L3.good⟩, ?_, ?_, ?_, ?_, ?_, ?_, ?_, ?_, ?_, ?_⟩
  · show PInv B (2 ^ h2.bits) (fun p => home h2 (rehash p))
    rw [hbits]; exact P3
  · show (contents B (2 ^ h2.bits)).Perm _
    rw [hbits]; exact c3.trans (perm.cons p)
  · show h2.elems + 1 = _
    rw [f2, elems]; simp
  · show Htable.used B (2 ^ h2.bits) ≤ h2.elems + 1 + h2.deleted
    rw [hbits, f2, f3]; omega
  · show h2.elems + 1 + h2.deleted ≤ h2.maxWithDeleted
    omega
  · show h2.elems + 1 ≤ h2.max
    omega
  · show h2.max = 3 * 2 ^ h2.bits / 4
    rw [hbits, f4, max]
  · show h2.maxWithDeleted = 9 * 2 ^ h2.bits / 10
    rw [hbits, f5, maxwd]
  · show 1 ≤ h2.bits
    omega
  · exact .inl G2.2.2

theorem add_inv {ht : HT} {S : List W} (hK : 1 ≤ K) (I : Inv rehash K ht S) (hS : S.length + 1 ≤ 2 ^ 29) {p : W} (mem : Bool)
    (hp : p.getLsbD K = true) (htop : ∀ i > K, p.getLsbD i = false) :
    ∃ r, add rehash mem ht (rehash p) p = some r ∧
      ((r.2 = true ∧ Inv rehash K r.1 (p :: S)) ∨ (r.2 = false ∧ mem = false ∧ Inv rehash K r.1 S)) := by
  have hp0 : p ≠ 0#64 := by rintro rfl; simp at hp
  -- reduce to the situation after the doubling
  suffices hs : ∀ (h1 : HT) (A : ATab), (if ht.elems + 1 > ht.max then doubleTable rehash mem ht else some (ht, true)) = some (h1, true) →
      Lay rehash K h1 A → PInv A (2 ^ h1.bits) (fun p => home h1 (rehash p)) →
      (contents A (2 ^ h1.bits)).Perm S → h1.elems = S.length →
      used A (2 ^ h1.bits) ≤ h1.elems + h1.deleted → h1.elems + h1.deleted ≤ h1.maxWithDeleted →
      h1.elems + 1 ≤ h1.max → h1.max = 3 * 2 ^ h1.bits / 4 → h1.maxWithDeleted = 9 * 2 ^ h1.bits / 10 →
      1 ≤ h1.bits →
      (h1.mask.getLsbD K = false ∨ (h1.mask = BitVec.allOnes 64 ∧ h1.cbits = 0#64 ∧ h1.elems = 0)) →
      ∃ r, add rehash mem ht (rehash p) p = some r ∧ r.2 = true ∧ Inv rehash K r.1 (p :: S) by
    rcases I with ⟨rfl, rfl⟩ | ⟨A, T⟩
    · cases mem with
      | false =>
        refine ⟨(init, false), ?_, .inr ⟨rfl, rfl, .inl ⟨rfl, rfl⟩⟩⟩
        simp [add, init, doubleTable]
      | true =>
        have L0 := newT_lay (rehash := rehash) (ht := init) hK (by decide) (by decide) (by decide)
        obtain ⟨r, h1, h2, h3⟩ := hs { newT init with deleted := 0 } (fun _ => .empty) (by
            simp [init, doubleTable, newT])
          ⟨L0.hK, L0.bits, L0.tab, L0.cm, L0.pm, L0.good⟩ (fun k _ p hp => by simp at hp)
          (by rw [contents_empty]) rfl (by rw [used_empty]; exact Nat.zero_le _) (by decide) (by decide) (by decide) (by decide) (by decide)
          (.inr ⟨by rfl, by rfl, by rfl⟩)
        exact ⟨r, h1, .inl ⟨h2, h3⟩⟩
    · by_cases hd : ht.elems + 1 > ht.max
      · have hb : ht.bits + 1 < 31 := by
          apply Classical.byContradiction
          intro hge
          have h30 : 2 ^ 30 ≤ 2 ^ ht.bits := Nat.pow_le_pow_right (by omega) (by omega)
          have := T.max
          have := T.elems
          have e30 : (2 : Nat) ^ 30 = 1073741824 := by decide
          have e29 : (2 : Nat) ^ 29 = 536870912 := by decide
          omega
        cases mem with
        | false =>
          refine ⟨(ht, false), ?_, .inr ⟨rfl, rfl, .inr ⟨A, T⟩⟩⟩
          simp only [add, if_pos hd]
          unfold doubleTable
          rw [if_neg (by omega)]
          simp
        | true =>
          obtain ⟨t, B, e, L1, P1, c1, u1⟩ := double_spec T.lay hb
          have hpow : 2 ^ (ht.bits + 1) = 2 * 2 ^ ht.bits := by rw [Nat.pow_succ, Nat.mul_comm]
          have hx := pow_ge_two T.bits
          have hm := T.max
          have he := T.emax
          have hle := T.perm.length_eq
          have hel := T.elems
          obtain ⟨r, h1, h2, h3⟩ := hs _ B (by rw [if_pos hd]; exact e) L1 P1 (c1.trans T.perm) T.elems
            (by show used B (2 ^ (ht.bits + 1)) ≤ ht.elems + 0; omega)
            (by show ht.elems + 0 ≤ 9 * 2 ^ (ht.bits + 1) / 10; rw [hpow]; omega)
            (by show ht.elems + 1 ≤ 3 * 2 ^ (ht.bits + 1) / 4; rw [hpow]; omega)
            rfl rfl (by show 1 ≤ ht.bits + 1; omega) T.mask
          exact ⟨r, h1, .inl ⟨h2, h3⟩⟩
      · obtain ⟨r, h1, h2, h3⟩ := hs ht A (by rw [if_neg hd]) T.lay T.pinv T.perm T.elems T.used T.sum
          (by omega) T.max T.maxwd T.bits T.mask
        exact ⟨r, h1, .inl ⟨h2, h3⟩⟩
  intro h1 A e1 L P perm elems hused sum emax max maxwd bits mask
  have hx := pow_ge_two bits
  unfold add
  rw [e1]
  simp only [Option.bind_eq_bind, Option.bind_some, Bool.true_eq_false, if_false]
  by_cases hr : h1.elems + 1 + h1.deleted > h1.maxWithDeleted
  · obtain ⟨t, B, e2, L2, P2, c2, u2⟩ := rehash_spec L P (by omega)
    rw [if_pos hr, e2]
    simp only [Option.bind_some, if_neg hp0]
    obtain ⟨h', A', e3, T3⟩ := add_tail (p := p) L2 P2 (c2.trans perm) elems
      (by show used B (2 ^ h1.bits) ≤ h1.elems + 0; have := perm.length_eq; omega)
      (by show h1.elems + 1 + 0 ≤ h1.maxWithDeleted; omega) emax max maxwd bits mask hp htop
    refine ⟨(h', true), ?_, rfl, .inr ⟨A', T3⟩⟩
    rw [Option.bind_eq_some_iff] at e3
    obtain ⟨a, e4, e5⟩ := e3
    rw [e4]
    simp only [Option.bind_some, Option.pure_def, Option.some.injEq]
    rw [Option.some.inj e5]
  · rw [if_neg hr]
    simp only [Option.bind_some, if_neg hp0]
    obtain ⟨h', A', e3, T3⟩ := add_tail (p := p) L P perm elems hused (by omega) emax max maxwd bits mask hp htop
    refine ⟨(h', true), ?_, rfl, .inr ⟨A', T3⟩⟩
    rw [Option.bind_eq_some_iff] at e3
    obtain ⟨a, e4, e5⟩ := e3
    rw [e4]
    simp only [Option.bind_some, Option.pure_def, Option.some.injEq]
    rw [Option.some.inj e5]

theorem TInv.free {ht : HT} {S : List W} {A : ATab} (T : TInv rehash K ht S A) :
    ∃ k < 2 ^ ht.bits, A k = .empty := by
  have hx := pow_ge_two T.bits
  have := T.used; have := T.sum; have := T.maxwd
  exact exists_empty (by omega)

theorem search_init (h : W) (cmp : W → Bool) : ∃ r, firstval init h = some r ∧ find cmp h init (init.tab.length + 1) r = some none := by
  refine ⟨(0, 0#64), ?_, ?_⟩
  · simp [firstval, hashBucket, idxMask, init, val, HT.tab]
  · simp [find]

theorem lookup_inv {ht : HT} {S : List W} (I : Inv rehash K ht S) (h : W) (cmp : W → Bool)
    (hc : ∀ c, cmp c = true → rehash c = h) :
    ∃ o, lookup cmp h ht = some o ∧ ((o = none ∧ ∀ p ∈ S, cmp p = false) ∨ ∃ c ∈ S, cmp c = true ∧ o = some c) := by
  rcases I with ⟨rfl, rfl⟩ | ⟨A, T⟩
  · obtain ⟨r, e1, e2⟩ := search_init h cmp
    exact ⟨none, by simp [lookup, e1, e2], .inl ⟨rfl, by simp⟩⟩
  · obtain ⟨r, e1, e2⟩ := search_spec T.lay T.pinv T.free h cmp hc
    rcases e2 with ⟨e2, e3⟩ | ⟨k, c, hk, ek, hcc, e2⟩
    · exact ⟨none, by simp [lookup, e1, e2], .inl ⟨rfl, fun p hp => e3 p (T.perm.mem_iff.2 hp)⟩⟩
    · exact ⟨some c, by simp [lookup, e1, e2], .inr ⟨c, T.perm.mem_iff.1 (mem_contents.2 ⟨k, hk, ek⟩), hcc, rfl⟩⟩

theorem remove_inv {ht : HT} {S : List W} (I : Inv rehash K ht S) (h : W) (cmp : W → Bool)
    (hc : ∀ c, cmp c = true → rehash c = h) :
    ∃ ht' o, remove cmp h ht = some (ht', o) ∧
      ((o = none ∧ (∀ p ∈ S, cmp p = false) ∧ Inv rehash K ht' S) ∨
        ∃ c ∈ S, cmp c = true ∧ o = some c ∧ Inv rehash K ht' (S.erase c)) := by
  rcases I with ⟨rfl, rfl⟩ | ⟨A, T⟩
  · obtain ⟨r, e1, e2⟩ := search_init h cmp
    exact ⟨init, none, by simp [remove, e1, e2], .inl ⟨rfl, by simp, .inl ⟨rfl, rfl⟩⟩⟩
  · obtain ⟨r, e1, e2⟩ := search_spec T.lay T.pinv T.free h cmp hc
    rcases e2 with ⟨e2, e3⟩ | ⟨k, c, hk, ek, hcc, e2⟩
    · exact ⟨ht, none, by simp [remove, e1, e2], .inl ⟨rfl, fun p hp => e3 p (T.perm.mem_iff.2 hp), .inr ⟨A, T⟩⟩⟩
    · have hcS : c ∈ S := T.perm.mem_iff.1 (mem_contents.2 ⟨k, hk, ek⟩)
      have hSpos : 0 < S.length := List.length_pos_of_mem hcS
      have L1 : Lay rehash K { ht with elems := ht.elems - 1 } A :=
        ⟨T.lay.hK, T.lay.bits, T.lay.tab, T.lay.cm, T.lay.pm, T.lay.good⟩
      obtain ⟨t, e4, L2⟩ := L1.set hk (s := .del) (fun p hp => by simp at hp)
      have hv : isValid (encS rehash ht k (A k)) = true := by
        rw [T.lay.valid_iff hk, ek]; rfl
      have he := T.elems
      refine ⟨{ ({ ht with elems := ht.elems - 1 } : HT).withTab t with deleted := ht.deleted + 1 }, some c, ?_, .inr ⟨c, hcS, hcc, rfl, .inr ⟨upd A k .del, ?_⟩⟩⟩
      · simp only [remove, e1, e2, Option.bind_eq_bind, Option.bind_some, delval, T.lay.get hk, hv, if_true]
        have e5 : setTab { ht with elems := ht.elems - 1 } k DELETED =
          some (({ ht with elems := ht.elems - 1 } : HT).withTab t) := e4
        rw [e5]
        rfl
      · have hc2 := contents_clear hk ek .del rfl
        refine ⟨⟨L2.hK, L2.bits, L2.tab, L2.cm, L2.pm, L2.good⟩, ?_, ?_, ?_, ?_, ?_, ?_, T.max, T.maxwd, T.bits, ?_⟩
        · exact T.pinv.del
        · have h3 : (c :: contents (upd A k .del) (2 ^ ht.bits)).Perm (c :: S.erase c) :=
            hc2.symm.trans (T.perm.trans (List.perm_cons_erase hcS))
          exact (List.perm_cons c).1 h3
        · show ht.elems - 1 = _
          rw [List.length_erase_of_mem hcS, he]
        · show Htable.used (upd A k .del) (2 ^ ht.bits) ≤ ht.elems - 1 + (ht.deleted + 1)
          rw [used_upd_nonempty (by rw [ek]; simp) (by simp)]
          have := T.used; omega
        · show ht.elems - 1 + (ht.deleted + 1) ≤ ht.maxWithDeleted
          have := T.sum; omega
        · show ht.elems - 1 ≤ ht.max
          have := T.emax; omega
        · rcases T.mask with h | h
          · exact .inl h
          · exact .inr ⟨h.1, h.2.1, by show ht.elems - 1 = 0; omega⟩

theorem visit_inv {ht : HT} {S : List W} (I : Inv rehash K ht S) : (visit ht).Perm S := by
  rcases I with ⟨rfl, rfl⟩ | ⟨A, T⟩
  · exact List.Perm.refl _
  · rw [visit_contents T.lay]; exact T.perm

theorem foreach_spec {ht : HT} {t : List W} (ht1 : ht.table = some t) (hl : t.length = 2 ^ ht.bits)
    (hv : ∀ e ∈ t, isValid e = true → rawPtr ht e ≠ 0#64) :
    ∀ (fuel i : Nat), t.length - i < fuel →
      foreach ht fuel (thisOrNext ht i) = some (((t.drop i).filter isValid).map (rawPtr ht)) := by
  intro fuel
  induction fuel with
  | zero => intro i h; omega
  | succ f ih =>
    intro i hi
    rw [foreach]
    have htab : ht.tab = t := by simp [HT.tab, ht1]
    cases hf : (t.drop i).findIdx? isValid with
    | none =>
      have hn : thisOrNext ht i = none := by simp [thisOrNext, ht1, hf]
      rw [hn]
      rw [List.findIdx?_eq_none_iff] at hf
      have : (t.drop i).filter isValid = [] := by
        rw [List.filter_eq_nil_iff]
        intro a ha; simp [hf a ha]
      simp [getEntry, this]
    | some q =>
      have hn : thisOrNext ht i = some (q + i) := by simp [thisOrNext, ht1, hf]
      rw [List.findIdx?_eq_some_iff_getElem] at hf
      obtain ⟨hq, hvq, hbef⟩ := hf
      simp only [List.length_drop] at hq
      have hqi : q + i < t.length := by omega
      have hge : (t.drop i)[q]'(by simp; omega) = t[q + i] := by
        simp [Nat.add_comm]
      rw [hge] at hvq
      have hent : getEntry ht (some (q + i)) = rawPtr ht t[q + i] := by
        simp only [getEntry]
        rw [if_pos (by omega), htab, List.getElem?_eq_getElem hqi]
        simp [hvq]
      have hne : rawPtr ht t[q + i] ≠ 0#64 := hv _ (List.getElem_mem _) hvq
      rw [hn, hent, if_neg hne]
      simp only [Option.getD_some]
      rw [ih (q + i + 1) (by omega)]
      have hsplit : (t.drop i).filter isValid = t[q + i] :: (t.drop (q + i + 1)).filter isValid := by
        have h1 : t.drop i = (t.drop i).take q ++ t[q + i] :: t.drop (q + i + 1) := by
          conv => lhs; rw [← List.take_append_drop q (t.drop i)]
          congr 1
          rw [List.drop_drop, Nat.add_comm i q, List.drop_eq_getElem_cons hqi]
        rw [h1, List.filter_append]
        have h2 : ((t.drop i).take q).filter isValid = [] := by
          rw [List.filter_eq_nil_iff]
          intro a ha
          obtain ⟨j, hj, e⟩ := List.getElem_of_mem ha
          simp only [List.length_take, List.length_drop] at hj
          have := hbef j (by omega)
          rw [List.getElem_take] at e
          rw [e] at this
          simpa using this
        rw [h2, List.nil_append, List.filter_cons_of_pos hvq]
      rw [hsplit]
      simp

theorem iterate_inv {ht : HT} {S : List W} (I : Inv rehash K ht S) :
    ∃ l, iterate ht = some l ∧ l = visit ht := by
  rcases I with ⟨rfl, rfl⟩ | ⟨A, T⟩
  · exact ⟨[], by decide, by decide⟩
  · obtain ⟨t, h1, h2, h3⟩ := T.lay.tab
    refine ⟨_, ?_, rfl⟩
    unfold iterate
    rw [foreach_spec h1 h2 ?_ _ _ (by rw [T.lay.len]; omega)]
    · simp [visit, h1]
    · intro e he hv
      obtain ⟨k, hk, ek⟩ := List.getElem_of_mem he
      have hk' : k < 2 ^ ht.bits := by omega
      have h4 := h3 k hk'
      rw [List.getElem?_eq_getElem hk, ek] at h4
      have h5 := Option.some.inj h4
      rw [h5, T.lay.valid_iff hk'] at hv
      cases hA : A k with
      | empty => rw [hA] at hv; simp [Slot.isEnt, Slot.ptr] at hv
      | del => rw [hA] at hv; simp [Slot.isEnt, Slot.ptr] at hv
      | ent p =>
        have hg := T.lay.good k hk' p hA
        rw [h5, hA]
        simp only [encS, enc_raw T.lay hg.2.1]
        rintro rfl
        have := hg.1
        simp at this

theorem run_inv (hK : 1 ≤ K) : ∀ (ops : List Op) {ht : HT} {S : List W}, Inv rehash K ht S →
    S.length + ops.length ≤ 2 ^ 29 → (∀ o ∈ ops, Spec.Lawful rehash o) → (∀ o ∈ ops, Spec.TopBit K o) →
    ∃ ht' outs S', run rehash ht ops = some (ht', outs) ∧ Spec.Steps S ops outs S' ∧ Inv rehash K ht' S' := by
  intro ops
  induction ops with
  | nil => intro ht S I _ _ _; exact ⟨ht, [], S, rfl, .nil, I⟩
  | cons o t ih =>
    intro ht S I hlen hlaw htop
    simp only [List.length_cons] at hlen
    suffices hs : ∃ h1 out S1, step rehash ht o = some (h1, out) ∧ Spec.Step S o out S1 ∧ Inv rehash K h1 S1 ∧
        S1.length ≤ S.length + 1 by
      obtain ⟨h1, out, S1, e1, st1, I1, hl1⟩ := hs
      obtain ⟨h2, outs, S2, e2, st2, I2⟩ := ih I1 (by omega) (fun o ho => hlaw o (by simp [ho])) (fun o ho => htop o (by simp [ho]))
      exact ⟨h2, out :: outs, S2, by simp [run, e1, e2], .cons st1 st2, I2⟩
    have law := hlaw o (by simp)
    have top := htop o (by simp)
    cases o with
    | insert mem p =>
      have hb := bits_of_range top.1 top.2
      obtain ⟨r, e, h⟩ := add_inv hK I (by omega) mem hb.1 hb.2
      rcases h with ⟨h1, h2⟩ | ⟨h1, h2, h3⟩
      · exact ⟨r.1, .ok true, p :: S, by simp [step, e, h1], .inserted, h2, by simp⟩
      · subst h2
        exact ⟨r.1, .ok false, S, by simp [step, e, h1], .oom, h3, by omega⟩
    | remove cmp h =>
      obtain ⟨h', o, e, hc⟩ := remove_inv I h cmp law
      rcases hc with ⟨h1, h2, h3⟩ | ⟨c, h1, h2, h3, h4⟩
      · subst h1
        exact ⟨h', .found none, S, by simp [step, e], .notRemoved h2, h3, by omega⟩
      · subst h3
        exact ⟨h', .found (some c), S.erase c, by simp [step, e], .removed h1 h2, h4, by
          have := List.length_erase_le (a := c) (l := S); omega⟩
    | lookup cmp h =>
      obtain ⟨o, e, hc⟩ := lookup_inv I h cmp law
      rcases hc with ⟨h1, h2⟩ | ⟨c, h1, h2, h3⟩
      · subst h1
        exact ⟨ht, .found none, S, by simp [step, e], .notFound h2, I, by omega⟩
      · subst h3
        exact ⟨ht, .found (some c), S, by simp [step, e], .found h1 h2, I, by omega⟩
    | iterate =>
      obtain ⟨l, e, hl⟩ := iterate_inv I
      exact ⟨ht, .seen l, S, by simp [step, e], .iterate (by rw [hl]; exact visit_inv I), I, by omega⟩
    | visit => exact ⟨ht, .seen (visit ht), S, rfl, .visit (visit_inv I), I, by omega⟩
    | clear => exact ⟨init, .seen (visit ht), [], rfl, .clear (visit_inv I), .inl ⟨rfl, rfl⟩, by simp⟩

theorem inv_elems {ht : HT} {S : List W} (I : Inv rehash K ht S) : ht.elems = S.length := by
  rcases I with ⟨rfl, rfl⟩ | ⟨A, T⟩
  · rfl
  · exact T.elems

/-- a reachable table has a free slot -/
theorem inv_free {ht : HT} {S : List W} (I : Inv rehash K ht S) : 0#64 ∈ ht.tab := by
  rcases I with ⟨rfl, rfl⟩ | ⟨A, T⟩
  · decide
  · obtain ⟨k, hk, e⟩ := T.free
    have := T.lay.get hk
    rw [e] at this
    exact List.mem_of_getElem? this

end
end Verif.Htable
