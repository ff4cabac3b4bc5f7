import Verif.Proof.Htable
/-! Layout relation between an encoded table and an abstract one; simulation of the loops. -/
namespace Verif.Htable

def home (ht : HT) (h : W) : Nat := h.toNat % 2 ^ ht.bits

def flag (ht : HT) (k : Nat) (h : W) : W := if k = home ht h then ht.perfect else 0#64

def encE (ht : HT) (k : Nat) (h p : W) : W := makeHval ht p (hashBits ht h ||| flag ht k h)

def encS (rehash : W → W) (ht : HT) (k : Nat) : Slot → W
  | .empty => 0#64
  | .del => 1#64
  | .ent p => encE ht k (rehash p) p

def Good (ht : HT) (K : Nat) (p : W) : Prop :=
  p.getLsbD K = true ∧ p &&& ht.mask = ht.cbits ∧ ht.mask.getLsbD K = false

structure Lay (rehash : W → W) (K : Nat) (ht : HT) (A : ATab) : Prop where
  hK : 1 ≤ K
  bits : ht.bits < 31
  tab : ∃ t, ht.table = some t ∧ t.length = 2 ^ ht.bits ∧
    ∀ k < 2 ^ ht.bits, t[k]? = some (encS rehash ht k (A k))
  cm : ht.cbits &&& ht.mask = ht.cbits
  pm : ht.perfect &&& ht.mask = ht.perfect
  good : ∀ k < 2 ^ ht.bits, ∀ p, A k = .ent p → Good ht K p

theorem flag_mask {ht : HT} (h : ht.perfect &&& ht.mask = ht.perfect) (k : Nat) (x : W) :
    flag ht k x &&& ht.mask = flag ht k x := by
  unfold flag
  split
  · exact h
  · simp

section
variable {rehash : W → W} {K : Nat} {ht : HT} {A : ATab}

theorem Lay.get (L : Lay rehash K ht A) {k : Nat} (hk : k < 2 ^ ht.bits) :
    ht.tab[k]? = some (encS rehash ht k (A k)) := by
  obtain ⟨t, h1, _, h3⟩ := L.tab
  unfold HT.tab
  rw [h1]
  exact h3 k hk

theorem Lay.len (L : Lay rehash K ht A) : ht.tab.length = 2 ^ ht.bits := by
  obtain ⟨t, h1, h2, _⟩ := L.tab
  unfold HT.tab
  rw [h1]
  exact h2

theorem Lay.idx (L : Lay rehash K ht A) : idxMask ht = some (2 ^ ht.bits - 1) := by
  simp [idxMask, L.bits]

theorem and_mask (x b : Nat) : x &&& (2 ^ b - 1) = x % 2 ^ b := Nat.and_two_pow_sub_one_eq_mod x b

theorem pos_pow (b : Nat) : 0 < 2 ^ b := Nat.two_pow_pos b

theorem Lay.bucket (L : Lay rehash K ht A) (h : W) : hashBucket ht h = some (home ht h) := by
  simp [hashBucket, L.idx, and_mask, home]

theorem home_lt (h : W) : home ht h < 2 ^ ht.bits := Nat.mod_lt _ (pos_pow _)

theorem enc_raw (L : Lay rehash K ht A) {p : W} (hg : p &&& ht.mask = ht.cbits) (k : Nat) (h : W) :
    rawPtr ht (encE ht k h p) = p :=
  raw_enc hg (or_mask (hb_mask ht h) (flag_mask L.pm k h))

theorem enc_extra (L : Lay rehash K ht A) (p : W) (k : Nat) (h : W) :
    extraBits ht (encE ht k h p) = hashBits ht h ||| flag ht k h :=
  extra_enc (or_mask (hb_mask ht h) (flag_mask L.pm k h))

theorem enc_valid (hK : 1 ≤ K) {p : W} (hg : Good ht K p) (k : Nat) (h : W) :
    isValid (encE ht k h p) = true := by
  apply valid_of_bit hK
  obtain ⟨h1, _, h3⟩ := hg
  have hlt : K < 64 := BitVec.lt_of_getLsbD h1
  simp only [encE, makeHval, BitVec.getLsbD_or, BitVec.getLsbD_and, BitVec.getLsbD_not, h1, h3, hlt]
  simp

theorem Lay.valid_iff (L : Lay rehash K ht A) {k : Nat} (hk : k < 2 ^ ht.bits) :
    isValid (encS rehash ht k (A k)) = (A k).isEnt := by
  cases h : A k with
  | empty => exact not_valid_zero
  | del => exact not_valid_one
  | ent p => simp only [encS, enc_valid L.hK (L.good k hk p h)]; rfl

theorem Lay.zero_iff (L : Lay rehash K ht A) {k : Nat} (hk : k < 2 ^ ht.bits) :
    encS rehash ht k (A k) = 0#64 ↔ A k = .empty := by
  cases h : A k with
  | empty => simp [encS]
  | del => simp [encS]
  | ent p =>
    have := enc_valid L.hK (L.good k hk p h) k (rehash p)
    simp only [encS, reduceCtorEq, iff_false]
    intro e
    rw [e, not_valid_zero] at this
    simp at this

theorem Lay.one_iff (L : Lay rehash K ht A) {k : Nat} (hk : k < 2 ^ ht.bits) :
    encS rehash ht k (A k) = DELETED ↔ A k = .del := by
  cases h : A k with
  | empty => simp [encS, DELETED]
  | del => simp [encS, DELETED]
  | ent p =>
    have := enc_valid L.hK (L.good k hk p h) k (rehash p)
    simp only [encS, reduceCtorEq, iff_false]
    intro e
    rw [e, DELETED, not_valid_one] at this
    simp at this

/-- the same table header, other table contents -/
def HT.withTab (ht : HT) (t : List W) : HT := { ht with table := some t }

theorem encS_withTab (t : List W) (k : Nat) (s : Slot) :
    encS rehash (ht.withTab t) k s = encS rehash ht k s := by
  cases s <;> rfl

theorem Lay.set (L : Lay rehash K ht A) {i : Nat} (hi : i < 2 ^ ht.bits) {s : Slot}
    (hs : ∀ p, s = .ent p → Good ht K p) :
    ∃ t, setTab ht i (encS rehash ht i s) = some (ht.withTab t) ∧ Lay rehash K (ht.withTab t) (upd A i s) := by
  obtain ⟨t, h1, h2, h3⟩ := L.tab
  refine ⟨t.set i (encS rehash ht i s), ?_, L.hK, L.bits, ⟨_, rfl, ?_, ?_⟩, L.cm, L.pm, ?_⟩
  · unfold setTab
    rw [h1]
    simp only
    rw [if_pos (by omega)]
    rfl
  · show (t.set i _).length = 2 ^ ht.bits
    simpa using h2
  · intro k hk
    rw [encS_withTab]
    have hk' : k < 2 ^ ht.bits := hk
    rw [List.getElem?_set]
    by_cases hki : i = k
    · subst hki
      simp [upd, h2, hk']
    · rw [if_neg hki, h3 k hk']
      simp [upd, Ne.symm hki]
  · intro k hk p hp
    by_cases hki : k = i
    · subst hki
      exact hs p (by simpa [upd] using hp)
    · rw [upd, if_neg hki] at hp
      exact L.good k hk p hp

theorem step_idx {b j n : Nat} : ((b + j) % n + 1) % n = (b + (j + 1)) % n := by
  rw [Nat.mod_add_mod, Nat.add_assoc]

theorem addSlot_spec (L : Lay rehash K ht A) {b jN : Nat} 
    (hjN : ¬ (A ((b + jN) % 2 ^ ht.bits)).isEnt = true)
    (hbef : ∀ i < jN, (A ((b + i) % 2 ^ ht.bits)).isEnt = true) :
    ∀ (fuel j : Nat) (pf : W), j ≤ jN → jN - j < fuel →
      addSlot ht fuel ((b + j) % 2 ^ ht.bits) pf =
        some ((b + jN) % 2 ^ ht.bits, if j = jN then pf else 0#64) := by
  intro fuel
  induction fuel with
  | zero => intro j pf h1 h2; omega
  | succ f ih =>
    intro j pf h1 h2
    have hk := Nat.mod_lt (b + j) (pos_pow ht.bits)
    rw [addSlot, L.get hk]
    simp only [Option.bind_eq_bind, Option.bind_some, L.valid_iff hk]
    by_cases hj : j = jN
    · subst hj
      rw [if_neg hjN, if_pos rfl]
    · rw [if_pos (hbef j (by omega)), L.idx, if_neg hj]
      simp only [Option.bind_some, and_mask, step_idx]
      rw [ih (j + 1) 0#64 (by omega) (by omega)]
      simp

theorem htAdd_spec (L : Lay rehash K ht A) {p : W} (hg : Good ht K p)
    (hfree : ∃ k < 2 ^ ht.bits, (A k).isEnt = false) :
    ∃ j t, j < 2 ^ ht.bits ∧ (A ((home ht (rehash p) + j) % 2 ^ ht.bits)).isEnt = false ∧
      (∀ i < j, (A ((home ht (rehash p) + i) % 2 ^ ht.bits)).isEnt = true) ∧
      htAdd ht p (rehash p) = some (ht.withTab t) ∧
      Lay rehash K (ht.withTab t) (upd A ((home ht (rehash p) + j) % 2 ^ ht.bits) (.ent p)) := by
  obtain ⟨j, hj, h1, h2⟩ := first_from (P := fun k => (A k).isEnt = false) (b := home ht (rehash p))
    (pos_pow ht.bits) hfree
  have h2' : ∀ i < j, (A ((home ht (rehash p) + i) % 2 ^ ht.bits)).isEnt = true := by
    intro i hi; simpa using h2 i hi
  obtain ⟨t, e, L'⟩ := L.set (Nat.mod_lt (home ht (rehash p) + j) (pos_pow ht.bits)) (s := .ent p)
    (fun q hq => by cases hq; exact hg)
  refine ⟨j, t, hj, h1, h2', ?_, L'⟩
  have hs := addSlot_spec L (b := home ht (rehash p)) (jN := j) (by simp [h1]) h2' (ht.tab.length + 1) 0
    ht.perfect (by omega) (by rw [L.len]; omega)
  rw [Nat.add_zero (home ht (rehash p)), Nat.mod_eq_of_lt (home_lt _)] at hs
  unfold htAdd
  rw [L.bucket]
  simp only [Option.bind_eq_bind, Option.bind_some, hs]
  rw [← e]
  congr 1
  simp only [encS, encE]
  congr 2
  unfold flag
  have hb := home_lt (ht := ht) (rehash p)
  by_cases h0 : 0 = j
  · subst h0
    rw [if_pos rfl, Nat.add_zero, Nat.mod_eq_of_lt hb, if_pos rfl]
  · rw [if_neg h0, if_neg]
    intro e
    apply h0
    apply add_mod_inj (s := home ht (rehash p)) (pos_pow _) hj
    rw [Nat.add_zero, Nat.mod_eq_of_lt hb, e]

/-- the slot at `i` steps from home matches the searched hash -/
def Matches (rehash : W → W) (ht : HT) (A : ATab) (h : W) (i : Nat) : Prop :=
  ∃ p, A ((home ht h + i) % 2 ^ ht.bits) = .ent p ∧
    hashBits ht (rehash p) ||| flag ht ((home ht h + i) % 2 ^ ht.bits) (rehash p) =
      hashBits ht h ||| (if i = 0 then ht.perfect else 0#64)

theorem matches_of_hash {h : W} {i : Nat} (hi : i < 2 ^ ht.bits) {p : W}
    (he : A ((home ht h + i) % 2 ^ ht.bits) = .ent p) (hh : rehash p = h) : Matches rehash ht A h i := by
  refine ⟨p, he, ?_⟩
  rw [hh]
  congr 1
  unfold flag
  have hb := home_lt (ht := ht) h
  by_cases h0 : i = 0
  · subst h0
    rw [Nat.add_zero, Nat.mod_eq_of_lt hb]
    simp
  · rw [if_neg h0, if_neg]
    intro e
    apply h0
    apply add_mod_inj (s := home ht h) hi (pos_pow _)
    rw [Nat.add_zero, Nat.mod_eq_of_lt hb, e]

theorem val_spec (L : Lay rehash K ht A) (h : W) {jE : Nat}
    (hE : A ((home ht h + jE) % 2 ^ ht.bits) = .empty) :
    ∀ (fuel j : Nat) (pf : W), (pf = ht.perfect ∨ (pf = 0#64 ∧ 1 ≤ j)) → j ≤ jE → jE - j < fuel →
      ∃ j', j ≤ j' ∧ j' ≤ jE ∧ (∀ i, j ≤ i → i < j' → ¬ Matches rehash ht A h i) ∧
        ((A ((home ht h + j') % 2 ^ ht.bits) = .empty ∧
            val ht pf fuel ((home ht h + j) % 2 ^ ht.bits) (hashBits ht h ||| if j = 0 then ht.perfect else 0#64)
              = some ((home ht h + j') % 2 ^ ht.bits, 0#64)) ∨
         ∃ p, A ((home ht h + j') % 2 ^ ht.bits) = .ent p ∧
            val ht pf fuel ((home ht h + j) % 2 ^ ht.bits) (hashBits ht h ||| if j = 0 then ht.perfect else 0#64)
              = some ((home ht h + j') % 2 ^ ht.bits, p)) := by
  intro fuel
  induction fuel with
  | zero => intro j pf _ h1 h2; omega
  | succ f ih =>
    intro j pf hpf h1 h2
    have hk := Nat.mod_lt (home ht h + j) (pos_pow ht.bits)
    rw [val, L.get hk]
    simp only [Option.bind_eq_bind, Option.bind_some, L.zero_iff hk]
    by_cases he : A ((home ht h + j) % 2 ^ ht.bits) = .empty
    · refine ⟨j, Nat.le_refl _, h1, fun i h1 h2 => by omega, .inl ⟨he, ?_⟩⟩
      rw [if_pos he]
    · rw [if_neg he]
      have hne : j ≠ jE := by rintro rfl; exact he hE
      by_cases hm : Matches rehash ht A h j
      · obtain ⟨p, hp, hmm⟩ := hm
        refine ⟨j, Nat.le_refl _, h1, fun i h1 h2 => by omega, .inr ⟨p, hp, ?_⟩⟩
        have hd : encS rehash ht ((home ht h + j) % 2 ^ ht.bits) (A ((home ht h + j) % 2 ^ ht.bits)) ≠ DELETED := by
          rw [Ne, L.one_iff hk, hp]; simp
        rw [if_pos]
        · rw [hp]
          simp only [encS, enc_raw L (L.good _ hk p hp).2.1]
        · refine ⟨hd, ?_⟩
          rw [hp]
          simp only [encS, enc_extra L]
          exact hmm
      · rw [if_neg]
        · have hd : (hashBits ht h ||| if j = 0 then ht.perfect else 0#64) &&& ~~~pf =
              hashBits ht h ||| (if j + 1 = 0 then ht.perfect else 0#64) := by
            rw [if_neg (by omega : ¬ j + 1 = 0)]
            rcases hpf with rfl | ⟨rfl, h3⟩
            · by_cases h0 : j = 0
              · rw [if_pos h0, drop_perfect (hb_perfect ht h)]; simp
              · rw [if_neg h0]; simp only [BitVec.or_zero]; exact keep_nonperfect (hb_perfect ht h)
            · rw [if_neg (by omega)]
              exact keep_nonperfect (by simp)
          obtain ⟨j', g1, g2, g3, g4⟩ := ih (j + 1) pf (by rcases hpf with h | h; exact .inl h; exact .inr ⟨h.1, by omega⟩)
            (by omega) (by omega)
          refine ⟨j', by omega, g2, ?_, ?_⟩
          · intro i hi1 hi2
            by_cases hij : i = j
            · rw [hij]; exact hm
            · exact g3 i (by omega) hi2
          · rw [L.idx]
            simp only [Option.bind_some, and_mask, step_idx, hd]
            exact g4
        · rintro ⟨hd, hx⟩
          apply hm
          cases hs : A ((home ht h + j) % 2 ^ ht.bits) with
          | empty => exact absurd hs he
          | del => rw [hs] at hd; simp [encS, DELETED] at hd
          | ent p =>
            refine ⟨p, hs, ?_⟩
            rw [hs] at hx
            simp only [encS, enc_extra L] at hx
            exact hx

theorem find_spec (L : Lay rehash K ht A) (h : W) (cmp : W → Bool) (hc : ∀ c, cmp c = true → rehash c = h)
    {jE : Nat} (hjE : jE < 2 ^ ht.bits) (hE : A ((home ht h + jE) % 2 ^ ht.bits) = .empty) :
    ∀ (fuel j : Nat) (r : Nat × W), j ≤ jE → jE - j < fuel → r.1 = (home ht h + j) % 2 ^ ht.bits →
      ((A ((home ht h + j) % 2 ^ ht.bits) = .empty ∧ r.2 = 0#64) ∨
        A ((home ht h + j) % 2 ^ ht.bits) = .ent r.2) →
      ∃ j', j ≤ j' ∧ j' ≤ jE ∧
        (∀ i, j ≤ i → i < j' → ∀ p, A ((home ht h + i) % 2 ^ ht.bits) = .ent p → cmp p = false) ∧
        ((A ((home ht h + j') % 2 ^ ht.bits) = .empty ∧ find cmp h ht fuel r = some none) ∨
         ∃ c, A ((home ht h + j') % 2 ^ ht.bits) = .ent c ∧ cmp c = true ∧
          find cmp h ht fuel r = some (some ((home ht h + j') % 2 ^ ht.bits, c))) := by
  intro fuel
  induction fuel with
  | zero => intro j r h1 h2; omega
  | succ f ih =>
    intro j r h1 h2 h3 h4
    have hk := Nat.mod_lt (home ht h + j) (pos_pow ht.bits)
    rw [find]
    rcases h4 with ⟨he, hr⟩ | he
    · exact ⟨j, Nat.le_refl _, h1, fun i h1 h2 => by omega, .inl ⟨he, by rw [if_pos hr]⟩⟩
    · have hr0 : r.2 ≠ 0#64 := by
        intro e
        have := (L.good _ hk _ he).1
        rw [e] at this
        simp at this
      rw [if_neg hr0]
      by_cases hcm : cmp r.2 = true
      · refine ⟨j, Nat.le_refl _, h1, fun i h1 h2 => by omega, .inr ⟨r.2, he, hcm, ?_⟩⟩
        rw [if_pos hcm, ← h3]
      · rw [if_neg hcm]
        have hne : j ≠ jE := by
          rintro rfl
          rw [hE] at he; simp at he
        obtain ⟨j1, g1, g2, g3, g4⟩ := val_spec L h hE (ht.tab.length + 1) (j + 1) 0#64 (.inr ⟨rfl, by omega⟩)
          (by omega) (by rw [L.len]; omega)
        have hnv : ∃ r', nextval ht r.1 h = some r' ∧ r'.1 = (home ht h + j1) % 2 ^ ht.bits ∧
            ((A ((home ht h + j1) % 2 ^ ht.bits) = .empty ∧ r'.2 = 0#64) ∨
              A ((home ht h + j1) % 2 ^ ht.bits) = .ent r'.2) := by
          unfold nextval
          rw [L.idx, h3]
          simp only [Option.bind_eq_bind, Option.bind_some, and_mask, step_idx]
          rw [if_neg (by omega : ¬ j + 1 = 0)] at g4
          rcases g4 with ⟨e1, e2⟩ | ⟨p, e1, e2⟩
          · exact ⟨_, e2, rfl, .inl ⟨e1, rfl⟩⟩
          · exact ⟨_, e2, rfl, .inr e1⟩
        obtain ⟨r', e', hr1, hr2⟩ := hnv
        obtain ⟨j', k1, k2, k3, k4⟩ := ih j1 r' g2 (by omega) hr1 hr2
        refine ⟨j', by omega, k2, ?_, ?_⟩
        · intro i hi1 hi2 p hp
          by_cases hij : i = j
          · subst hij
            rw [he] at hp
            obtain rfl : r.2 = p := by simpa using hp
            simpa using hcm
          · by_cases hi3 : i < j1
            · have hnm := g3 i (by omega) hi3
              cases hcp : cmp p with
              | false => rfl
              | true => exact absurd (matches_of_hash (by omega) hp (hc p hcp)) hnm
            · exact k3 i (by omega) hi2 p hp
        · simp only [Option.bind_eq_bind, e', Option.bind_some]
          exact k4

theorem search_spec (L : Lay rehash K ht A) (P : PInv A (2 ^ ht.bits) (fun p => home ht (rehash p)))
    (hemp : ∃ k < 2 ^ ht.bits, A k = .empty) (h : W) (cmp : W → Bool)
    (hc : ∀ c, cmp c = true → rehash c = h) :
    ∃ r, firstval ht h = some r ∧
      ((find cmp h ht (ht.tab.length + 1) r = some none ∧ ∀ p ∈ contents A (2 ^ ht.bits), cmp p = false) ∨
       ∃ k c, k < 2 ^ ht.bits ∧ A k = .ent c ∧ cmp c = true ∧
        find cmp h ht (ht.tab.length + 1) r = some (some (k, c))) := by
  obtain ⟨jE, hjE, hE, hbef⟩ := first_from (P := fun k => A k = .empty) (b := home ht h) (pos_pow ht.bits) hemp
  obtain ⟨j1, g1, g2, g3, g4⟩ := val_spec L h hE (ht.tab.length + 1) 0 ht.perfect (.inl rfl) (by omega)
    (by rw [L.len]; omega)
  have hb := home_lt (ht := ht) h
  rw [Nat.add_zero (home ht h), Nat.mod_eq_of_lt hb, if_pos rfl] at g4
  have hfv : ∃ r, firstval ht h = some r ∧ r.1 = (home ht h + j1) % 2 ^ ht.bits ∧
      ((A ((home ht h + j1) % 2 ^ ht.bits) = .empty ∧ r.2 = 0#64) ∨
        A ((home ht h + j1) % 2 ^ ht.bits) = .ent r.2) := by
    unfold firstval
    rw [L.bucket]
    simp only [Option.bind_eq_bind, Option.bind_some]
    rcases g4 with ⟨e1, e2⟩ | ⟨p, e1, e2⟩
    · exact ⟨_, e2, rfl, .inl ⟨e1, rfl⟩⟩
    · exact ⟨_, e2, rfl, .inr e1⟩
  obtain ⟨r, e, hr1, hr2⟩ := hfv
  refine ⟨r, e, ?_⟩
  obtain ⟨j', k1, k2, k3, k4⟩ := find_spec L h cmp hc hjE hE (ht.tab.length + 1) j1 r g2
    (by rw [L.len]; omega) hr1 hr2
  rcases k4 with ⟨e1, e2⟩ | ⟨c, e1, e2, e3⟩
  · left
    refine ⟨e2, ?_⟩
    intro p hp
    cases hcp : cmp p with
    | false => rfl
    | true =>
      exfalso
      obtain ⟨k, hk, ek⟩ := mem_contents.1 hp
      have hh := hc p hcp
      obtain ⟨j, hj, ej, hpath⟩ := P k hk p ek
      simp only [hh] at ej hpath
      have hj' : j' = jE := by
        apply Classical.byContradiction
        intro hne
        exact hbef j' (by omega) e1
      have hjlt : j < jE := by
        rcases Nat.lt_trichotomy j jE with hl | he | hg
        · exact hl
        · rw [he] at ej
          rw [ej, hE] at ek
          simp at ek
        · exact absurd hE (hpath jE hg)
      rw [ej] at ek
      by_cases hjj : j < j1
      · exact g3 j (by omega) hjj (matches_of_hash hj ek hh)
      · have := k3 j (by omega) (by omega) p ek
        rw [hcp] at this
        simp at this
  · right
    exact ⟨_, c, Nat.mod_lt _ (pos_pow _), e1, e2, e3⟩

end

end Verif.Htable
