import Verif.Model.Server
/-!
# Helper lemmas about the DHCP server: the lease table
-/
namespace Verif.Server
open Verif.C

/-- The table holds this lease. -/
def Has (s : Srv) (l : Lease) : Prop := ∃ id, s.heap id = some l

/-- The settings are the same. -/
structure Cfg (s t : Srv) : Prop where
  a : t.startIp = s.startIp
  b : t.endIp = s.endIp
  c : t.serverNip = s.serverNip
  d : t.leaseSeconds = s.leaseSeconds
  e : t.little = s.little

theorem Cfg.refl (s : Srv) : Cfg s s := ⟨rfl, rfl, rfl, rfl, rfl⟩
theorem Cfg.trans {s t u : Srv} (h : Cfg s t) (k : Cfg t u) : Cfg s u :=
  ⟨k.a.trans h.a, k.b.trans h.b, k.c.trans h.c, k.d.trans h.d, k.e.trans h.e⟩

/-- Address and hardware address a lease may have. -/
structure Valid (s : Srv) (nip mac : Nat) : Prop where
  z : nip ≠ 0
  lo : s.startIp ≤ nip
  hi : nip ≤ s.endIp
  nb : mac ≠ macBcast
  na : mac ≠ macAny

structure Inv (s : Srv) : Prop where
  nodup : s.list.Nodup
  live : ∀ id, id ∈ s.list ↔ ∃ l, s.heap id = some l
  hash : ∀ nip id, s.hash nip = some id ↔ ∃ l, s.heap id = some l ∧ l.nip = nip
  macs : ∀ i j l m, s.heap i = some l → s.heap j = some m → l.mac = m.mac → i = j
  valid : ∀ id l, s.heap id = some l → Valid s l.nip l.mac
  fresh : ∀ id, s.next ≤ id → s.heap id = none

/-- The state between taking out a lease and putting it back: `id` is in neither index. -/
structure Det (s t : Srv) (id nip mac : Nat) : Prop where
  cfg : Cfg s t
  notin : id ∉ t.list
  here : ∃ l, t.heap id = some l
  sub : t.list.Sublist s.list
  same : ∀ j, j ≠ id → ∀ l, t.heap j = some l → s.heap j = some l
  kept : ∀ j l, s.heap j = some l → l.mac ≠ mac → l.nip ≠ nip → j ≠ id ∧ t.heap j = some l
  live : ∀ j, j ≠ id → (j ∈ t.list ↔ ∃ l, t.heap j = some l)
  hash : ∀ n j, t.hash n = some j ↔ j ≠ id ∧ ∃ l, t.heap j = some l ∧ l.nip = n
  other : ∀ j, j ≠ id → ∀ l, t.heap j = some l → l.mac ≠ mac ∧ l.nip ≠ nip
  fresh : ∀ j, t.next ≤ j → t.heap j = none

theorem put_same {α : Type} (f : Nat → Option α) (k : Nat) (v : Option α) : put f k v k = v := by simp [put]
theorem put_ne {α : Type} (f : Nat → Option α) (k : Nat) (v : Option α) (x : Nat) (h : x ≠ k) :
    put f k v x = f x := by simp [put, h]

theorem find_list (s : Srv) (mac : Nat) : ∀ (ls : List Nat), (∀ id ∈ ls, ∃ l, s.heap id = some l) →
    (∃ id l, findByMac s mac ls = some (some id) ∧ id ∈ ls ∧ s.heap id = some l ∧ l.mac = mac) ∨
    (findByMac s mac ls = some none ∧ ∀ id ∈ ls, ∀ l, s.heap id = some l → l.mac ≠ mac) := by
  intro ls
  induction ls with
  | nil => intro _; right; exact ⟨rfl, by simp⟩
  | cons x t ih =>
    intro h
    obtain ⟨l, hl⟩ := h x (by simp)
    by_cases hm : l.mac = mac
    · left; exact ⟨x, l, by simp [findByMac, hl, hm], by simp, hl, hm⟩
    · have e : findByMac s mac (x :: t) = findByMac s mac t := by simp [findByMac, hl, hm]
      rcases ih (fun id hi => h id (by simp [hi])) with ⟨id, l', a, b, c, d⟩ | ⟨a, b⟩
      · left; exact ⟨id, l', by rw [e, a], by simp [b], c, d⟩
      · right
        refine ⟨by rw [e, a], ?_⟩
        intro id hi l' hl'
        rcases List.mem_cons.1 hi with rfl | hi
        · rw [hl] at hl'; cases hl'; exact hm
        · exact b id hi l' hl'

theorem find_cases {s : Srv} (h : Inv s) (mac : Nat) :
    (∃ id l, findByMac s mac s.list = some (some id) ∧ s.heap id = some l ∧ l.mac = mac) ∨
    (findByMac s mac s.list = some none ∧ ∀ l, Has s l → l.mac ≠ mac) := by
  rcases find_list s mac s.list (fun id hi => (h.live id).1 hi) with ⟨id, l, a, _, c, d⟩ | ⟨a, b⟩
  · left; exact ⟨id, l, a, c, d⟩
  · right
    refine ⟨a, ?_⟩
    rintro l ⟨id, hl⟩
    exact b id ((h.live id).2 ⟨l, hl⟩) l hl

theorem Inv.nips {s : Srv} (h : Inv s) {i j : Nat} {l m : Lease} (a : s.heap i = some l) (b : s.heap j = some m)
    (e : l.nip = m.nip) : i = j := by
  have x := (h.hash l.nip i).2 ⟨l, a, rfl⟩
  have y := (h.hash l.nip j).2 ⟨m, b, e.symm⟩
  rw [x] at y; cases y; rfl

theorem mem_erase_nodup {l : List Nat} (h : l.Nodup) (a b : Nat) : b ∈ l.erase a ↔ b ≠ a ∧ b ∈ l :=
  h.mem_erase_iff

theorem get_spec {s : Srv} (h : Inv s) {nip mac : Nat} (hv : Valid s nip mac) (mem : Bool)
    (hm : mem = true ∨ ∃ l, Has s l ∧ (l.mac = mac ∨ l.nip = nip)) :
    ∃ t id, getLease s nip mac mem = some (0, t, some id) ∧ Det s t id nip mac := by
  have hsub : ∀ i, (s.list.erase i).Sublist s.list := fun i => List.erase_sublist
  unfold getLease
  rw [if_neg hv.z, if_neg (by have := hv.lo; omega), if_neg (by have := hv.hi; omega), if_neg hv.nb, if_neg hv.na]
  cases hn : s.hash nip with
  | some i =>
    obtain ⟨l, hl, hln⟩ := (h.hash nip i).1 hn
    rcases find_cases h mac with ⟨j, m, hf, hj, hjm⟩ | ⟨hf, hno⟩
    · by_cases hij : i = j
      · -- the same lease
        subst hij
        rw [hl] at hj; cases hj
        refine ⟨detach s i nip, i, by simp [hf], ?_⟩
        refine ⟨⟨rfl, rfl, rfl, rfl, rfl⟩, ?_, ⟨l, hl⟩, hsub i, fun j _ l hl => hl, ?_, ?_, ?_, ?_, h.fresh⟩
        · show i ∉ s.list.erase i
          rw [mem_erase_nodup h.nodup]; simp
        · intro j m hm h1 h2
          refine ⟨?_, hm⟩
          rintro rfl; rw [hl] at hm; cases hm; exact h2 hln
        · intro j hj
          show j ∈ s.list.erase i ↔ _
          rw [mem_erase_nodup h.nodup, h.live]
          exact ⟨fun x => x.2, fun x => ⟨hj, x⟩⟩
        · intro n j
          show put s.hash nip none n = some j ↔ _
          by_cases e : n = nip
          · subst e
            rw [put_same]
            constructor
            · intro x; cases x
            · rintro ⟨a, m, b, c⟩
              exact absurd (h.nips b hl (c.trans hln.symm)) a
          · rw [put_ne _ _ _ _ e, h.hash]
            constructor
            · rintro ⟨m, a, b⟩
              refine ⟨?_, m, a, b⟩
              rintro rfl; rw [hl] at a; cases a; exact e (b.symm.trans hln)
            · rintro ⟨_, m, a, b⟩; exact ⟨m, a, b⟩
        · intro j hj m hm
          refine ⟨?_, ?_⟩
          · intro e; exact hj (h.macs _ _ _ _ hm hl (e.trans hjm.symm))
          · intro e; exact hj (h.nips hm hl (e.trans hln.symm))
      · -- two leases: that of the hardware address goes
        have hmn : m.nip ≠ nip := fun e => hij (h.nips hl hj (hln.trans e.symm))
        refine ⟨{ detach s i nip with list := (s.list.erase i).erase j, hash := put (put s.hash nip none) m.nip none, heap := put s.heap j none }, i, by simp [hf, hij, removeLease, hj, detach], ?_⟩
        have hnd : (s.list.erase i).Nodup := h.nodup.erase i
        have hheap : ∀ k l, put s.heap j none k = some l ↔ k ≠ j ∧ s.heap k = some l := by
          intro k l
          by_cases e : k = j
          · subst e; rw [put_same]; simp
          · rw [put_ne _ _ _ _ e]; simp [e]
        refine ⟨⟨rfl, rfl, rfl, rfl, rfl⟩, ?_, ⟨l, (hheap i l).2 ⟨hij, hl⟩⟩, List.erase_sublist.trans (hsub i), ?_, ?_, ?_, ?_, ?_, ?_⟩
        · show i ∉ (s.list.erase i).erase j
          rw [mem_erase_nodup hnd, mem_erase_nodup h.nodup]; simp
        · intro k _ l hl; exact ((hheap k l).1 hl).2
        · intro k x hx h1 h2
          refine ⟨?_, (hheap k x).2 ⟨?_, hx⟩⟩
          · rintro rfl; rw [hl] at hx; cases hx; exact h2 hln
          · rintro rfl; rw [hj] at hx; cases hx; exact h1 hjm
        · intro k hk
          show k ∈ (s.list.erase i).erase j ↔ ∃ l, put s.heap j none k = some l
          rw [mem_erase_nodup hnd, mem_erase_nodup h.nodup, h.live]
          constructor
          · rintro ⟨a, b, l, c⟩; exact ⟨l, (hheap k l).2 ⟨a, c⟩⟩
          · rintro ⟨l, a⟩; have := (hheap k l).1 a; exact ⟨this.1, hk, l, this.2⟩
        · intro n k
          show put (put s.hash nip none) m.nip none n = some k ↔ k ≠ i ∧ ∃ l, put s.heap j none k = some l ∧ l.nip = n
          constructor
          · intro a
            by_cases e1 : n = m.nip
            · subst e1; rw [put_same] at a; cases a
            · rw [put_ne _ _ _ _ e1] at a
              by_cases e2 : n = nip
              · subst e2; rw [put_same] at a; cases a
              · rw [put_ne _ _ _ _ e2] at a
                obtain ⟨x, b, c⟩ := (h.hash n k).1 a
                refine ⟨?_, x, (hheap k x).2 ⟨?_, b⟩, c⟩
                · rintro rfl; rw [hl] at b; cases b; exact e2 (c.symm.trans hln)
                · rintro rfl; rw [hj] at b; cases b; exact e1 c.symm
          · rintro ⟨a, x, b, c⟩
            obtain ⟨d, b⟩ := (hheap k x).1 b
            have e1 : n ≠ m.nip := fun e => d (h.nips b hj (c.trans e))
            have e2 : n ≠ nip := fun e => a (h.nips b hl ((c.trans e).trans hln.symm))
            rw [put_ne _ _ _ _ e1, put_ne _ _ _ _ e2]
            exact (h.hash n k).2 ⟨x, b, c⟩
        · intro k hk x hx
          obtain ⟨d, b⟩ := (hheap k x).1 hx
          exact ⟨fun e => d (h.macs _ _ _ _ b hj (e.trans hjm.symm)), fun e => hk (h.nips b hl (e.trans hln.symm))⟩
        · intro k hk
          show put s.heap j none k = none
          by_cases e : k = j
          · subst e; rw [put_same]
          · rw [put_ne _ _ _ _ e]; exact h.fresh k hk
    · -- the lease of another hardware address
      refine ⟨detach s i nip, i, by simp [hf], ?_⟩
      refine ⟨⟨rfl, rfl, rfl, rfl, rfl⟩, ?_, ⟨l, hl⟩, hsub i, fun j _ l hl => hl, ?_, ?_, ?_, ?_, h.fresh⟩
      · show i ∉ s.list.erase i
        rw [mem_erase_nodup h.nodup]; simp
      · intro j m hm h1 h2
        refine ⟨?_, hm⟩
        rintro rfl; rw [hl] at hm; cases hm; exact h2 hln
      · intro j hj
        show j ∈ s.list.erase i ↔ _
        rw [mem_erase_nodup h.nodup, h.live]
        exact ⟨fun x => x.2, fun x => ⟨hj, x⟩⟩
      · intro n j
        show put s.hash nip none n = some j ↔ _
        by_cases e : n = nip
        · subst e
          rw [put_same]
          constructor
          · intro x; cases x
          · rintro ⟨a, m, b, c⟩
            exact absurd (h.nips b hl (c.trans hln.symm)) a
        · rw [put_ne _ _ _ _ e, h.hash]
          constructor
          · rintro ⟨m, a, b⟩
            refine ⟨?_, m, a, b⟩
            rintro rfl; rw [hl] at a; cases a; exact e (b.symm.trans hln)
          · rintro ⟨_, m, a, b⟩; exact ⟨m, a, b⟩
      · intro j hj m hm
        exact ⟨hno m ⟨j, hm⟩, fun e => hj (h.nips hm hl (e.trans hln.symm))⟩
  | none =>
    have hnn : ∀ l, Has s l → l.nip ≠ nip := by
      rintro l ⟨i, hl⟩ e
      have := (h.hash nip i).2 ⟨l, hl, e⟩
      rw [hn] at this; cases this
    rcases find_cases h mac with ⟨j, m, hf, hj, hjm⟩ | ⟨hf, hno⟩
    · refine ⟨detach s j m.nip, j, by simp [hf, hj], ?_⟩
      refine ⟨⟨rfl, rfl, rfl, rfl, rfl⟩, ?_, ⟨m, hj⟩, hsub j, fun j _ l hl => hl, ?_, ?_, ?_, ?_, h.fresh⟩
      · show j ∉ s.list.erase j
        rw [mem_erase_nodup h.nodup]; simp
      · intro k x hx h1 h2
        refine ⟨?_, hx⟩
        rintro rfl; rw [hj] at hx; cases hx; exact h1 hjm
      · intro k hk
        show k ∈ s.list.erase j ↔ _
        rw [mem_erase_nodup h.nodup, h.live]
        exact ⟨fun x => x.2, fun x => ⟨hk, x⟩⟩
      · intro n k
        show put s.hash m.nip none n = some k ↔ _
        by_cases e : n = m.nip
        · subst e
          rw [put_same]
          constructor
          · intro x; cases x
          · rintro ⟨a, x, b, c⟩
            exact absurd (h.nips b hj c) a
        · rw [put_ne _ _ _ _ e, h.hash]
          constructor
          · rintro ⟨x, a, b⟩
            refine ⟨?_, x, a, b⟩
            rintro rfl; rw [hj] at a; cases a; exact e b.symm
          · rintro ⟨_, x, a, b⟩; exact ⟨x, a, b⟩
      · intro k hk x hx
        exact ⟨fun e => hk (h.macs _ _ _ _ hx hj (e.trans hjm.symm)), hnn x ⟨k, hx⟩⟩
    · have hmem : mem = true := by
        rcases hm with hm | ⟨l, hl, e | e⟩
        · exact hm
        · exact absurd e (hno l hl)
        · exact absurd e (hnn l hl)
      refine ⟨{ s with heap := put s.heap s.next (some ⟨0, 0, 0⟩), next := s.next + 1 }, s.next, by simp [hf, hmem], ?_⟩
      have hnew : s.heap s.next = none := h.fresh _ (Nat.le_refl _)
      have hni : s.next ∉ s.list := by
        intro a; obtain ⟨l, b⟩ := (h.live _).1 a; rw [hnew] at b; cases b
      have hheap : ∀ k, k ≠ s.next → put s.heap s.next (some ⟨0, 0, 0⟩) k = s.heap k := fun k hk => put_ne _ _ _ _ hk
      refine ⟨⟨rfl, rfl, rfl, rfl, rfl⟩, hni, ⟨⟨0, 0, 0⟩, put_same _ _ _⟩, List.Sublist.refl _, ?_, ?_, ?_, ?_, ?_, ?_⟩
      · intro k hk l hl; rw [← hheap k hk]; exact hl
      · intro k x hx _ _
        have : k ≠ s.next := by rintro rfl; rw [hnew] at hx; cases hx
        exact ⟨this, by show put s.heap s.next (some ⟨0, 0, 0⟩) k = _; rw [hheap k this]; exact hx⟩
      · intro k hk
        show k ∈ s.list ↔ ∃ l, put s.heap s.next (some ⟨0, 0, 0⟩) k = some l
        rw [hheap k hk]; exact h.live k
      · intro n k
        show s.hash n = some k ↔ k ≠ s.next ∧ ∃ l, put s.heap s.next (some ⟨0, 0, 0⟩) k = some l ∧ l.nip = n
        rw [h.hash]
        constructor
        · rintro ⟨x, a, b⟩
          have : k ≠ s.next := by rintro rfl; rw [hnew] at a; cases a
          exact ⟨this, x, by rw [hheap k this]; exact a, b⟩
        · rintro ⟨this, x, a, b⟩
          rw [hheap k this] at a; exact ⟨x, a, b⟩
      · intro k hk x hx
        have hx' : s.heap k = some x := by rw [← hheap k hk]; exact hx
        exact ⟨hno x ⟨k, hx'⟩, hnn x ⟨k, hx'⟩⟩
      · intro k hk
        have hk' : s.next + 1 ≤ k := hk
        show put s.heap s.next (some ⟨0, 0, 0⟩) k = none
        rw [hheap k (by omega)]; exact h.fresh k (by omega)

theorem get_fail {s : Srv} {nip mac : Nat} (hv : ¬ Valid s nip mac) (mem : Bool) :
    getLease s nip mac mem = some (-ENXIO, s, none) := by
  unfold getLease
  split
  · rfl
  split
  · rfl
  split
  · rfl
  split
  · rfl
  split
  · rfl
  rename_i a b c d e
  exact absurd ⟨a, by omega, by omega, d, e⟩ hv

theorem get_nomem {s : Srv} (h : Inv s) {nip mac : Nat} (hv : Valid s nip mac)
    (hno : ∀ l, Has s l → l.mac ≠ mac ∧ l.nip ≠ nip) :
    getLease s nip mac false = some (-ENOMEM, s, none) := by
  unfold getLease
  rw [if_neg hv.z, if_neg (by have := hv.lo; omega), if_neg (by have := hv.hi; omega), if_neg hv.nb, if_neg hv.na]
  have hn : s.hash nip = none := by
    cases hn : s.hash nip with
    | none => rfl
    | some i => obtain ⟨l, hl, e⟩ := (h.hash nip i).1 hn; exact absurd e (hno l ⟨i, hl⟩).2
  rcases find_cases h mac with ⟨j, m, hf, hj, hjm⟩ | ⟨hf, _⟩
  · exact absurd hjm (hno m ⟨j, hj⟩).1
  · simp [hn, hf]

/-! ## Inserting in order -/

/-- Expiry of a lease. -/
def ex (h : Nat → Option Lease) (i : Nat) : Int := match h i with | some l => l.expire | none => 0

def Ordered (s : Srv) : Prop := s.list.Pairwise (fun a b => ex s.heap b ≤ ex s.heap a)

theorem insert_some (h : Nat → Option Lease) (e : Int) (id : Nat) : ∀ (ls : List Nat),
    (∀ x ∈ ls, ∃ l, h x = some l) → ∃ l', insertSorted h e id ls = some l' ∧ l'.Perm (id :: ls) := by
  intro ls
  induction ls with
  | nil => intro _; exact ⟨_, rfl, List.Perm.refl _⟩
  | cons x t ih =>
    intro hx
    obtain ⟨l, hl⟩ := hx x (by simp)
    obtain ⟨t', a, b⟩ := ih (fun y hy => hx y (by simp [hy]))
    by_cases g : gint (l.expire - e) > 0
    · refine ⟨x :: t', by simp [insertSorted, hl, g, a], ?_⟩
      exact (b.cons x).trans (List.Perm.swap id x t)
    · exact ⟨id :: x :: t, by simp [insertSorted, hl, g], List.Perm.refl _⟩

theorem gint_small (i : Int) (h : -2147483648 ≤ i) (k : i < 2147483648) : gint i = i := by
  unfold gint; omega

theorem insert_ordered (h : Nat → Option Lease) (e : Int) (id : Nat) (k : Nat → Int) : ∀ (ls l' : List Nat),
    insertSorted h e id ls = some l' → (∀ x ∈ ls, ∃ l, h x = some l) → (∀ x ∈ ls, k x = ex h x) → k id = e →
    (∀ x ∈ ls, 0 ≤ ex h x ∧ ex h x < 2147483648) → 0 ≤ e → e < 2147483648 →
    ls.Pairwise (fun a b => ex h b ≤ ex h a) → l'.Pairwise (fun a b => k b ≤ k a) := by
  intro ls
  induction ls with
  | nil => intro l' h1; simp [insertSorted] at h1; subst h1; intros; exact List.pairwise_singleton _ _
  | cons x t ih =>
    intro l' h1 hs hk hid hb h0 h2 hp
    rw [insertSorted] at h1
    cases hx : h x with
    | none => rw [hx] at h1; cases h1
    | some l =>
      rw [hx] at h1
      have hex : ex h x = l.expire := by simp [ex, hx]
      have hbx := hb x (by simp)
      rw [List.pairwise_cons] at hp
      have hg : gint (l.expire - e) = l.expire - e := gint_small _ (by omega) (by omega)
      simp only [Option.bind_eq_bind, Option.bind_some, hg] at h1
      split at h1
      · rename_i hgt
        cases h3 : insertSorted h e id t with
        | none => rw [h3] at h1; cases h1
        | some t' =>
          rw [h3] at h1
          simp only [Option.map_some, Option.some.injEq] at h1
          subst h1
          have hp' := ih t' h3 (fun y hy => hs y (by simp [hy])) (fun y hy => hk y (by simp [hy])) hid (fun y hy => hb y (by simp [hy])) h0 h2 hp.2
          rw [List.pairwise_cons]
          refine ⟨?_, hp'⟩
          intro y hy
          have hmem : y ∈ id :: t := by
            obtain ⟨u, a, b⟩ := insert_some h e id t (fun y hy => hs y (by simp [hy]))
            rw [h3] at a; cases a
            exact b.mem_iff.1 hy
          rw [hk x (by simp), hex]
          rcases List.mem_cons.1 hmem with rfl | hy
          · omega
          · rw [hk y (by simp [hy])]; have := hp.1 y hy; omega
      · rename_i hgt
        simp only [Option.some.injEq] at h1
        subst h1
        rw [List.pairwise_cons, List.pairwise_cons]
        have hkx : k x = ex h x := hk x (by simp)
        refine ⟨?_, ?_, ?_⟩
        · intro y hy
          rcases List.mem_cons.1 hy with rfl | hy
          · omega
          · have := hp.1 y hy; rw [hk y (by simp [hy])]; omega
        · intro y hy; rw [hk y (by simp [hy]), hkx]; exact hp.1 y hy
        · apply hp.2.imp_of_mem
          intro a b ha hb' hab
          rw [hk a (by simp [ha]), hk b (by simp [hb'])]; exact hab

/-! ## Adding a lease -/

def Small (s : Srv) : Prop := ∀ l, Has s l → 0 ≤ l.expire ∧ l.expire < 2147483648

/-- What adding a lease does to the table. -/
structure Added (s t : Srv) (id : Nat) (L : Lease) : Prop where
  cfg : Cfg s t
  inv : Inv t
  here : t.heap id = some L
  has : ∀ x, Has t x ↔ x = L ∨ (Has s x ∧ x.mac ≠ L.mac ∧ x.nip ≠ L.nip)
  ord : Small s → Ordered s → 0 ≤ L.expire → L.expire < 2147483648 → Ordered t

theorem attach {s t : Srv} {id : Nat} (L : Lease) (h : Inv s) (hv : Valid s L.nip L.mac)
    (hd : Det s t id L.nip L.mac) : ∃ ls, insertSorted t.heap L.expire id t.list = some ls ∧
      Added s { t with heap := put t.heap id (some L), list := ls, hash := put t.hash L.nip (some id) } id L := by
  have hne : ∀ x ∈ t.list, x ≠ id := fun x hx e => hd.notin (e ▸ hx)
  have hlive : ∀ x ∈ t.list, ∃ l, t.heap x = some l := fun x hx => (hd.live x (hne x hx)).1 hx
  obtain ⟨ls, h1, h2⟩ := insert_some t.heap L.expire id t.list hlive
  refine ⟨ls, h1, ?_⟩
  have hheap : ∀ k x, put t.heap id (some L) k = some x ↔ (k = id ∧ x = L) ∨ (k ≠ id ∧ t.heap k = some x) := by
    intro k x
    by_cases e : k = id
    · subst e; rw [put_same]; simp; exact eq_comm
    · rw [put_ne _ _ _ _ e]; simp [e]
  have hcfg : Cfg s { t with heap := put t.heap id (some L), list := ls, hash := put t.hash L.nip (some id) } :=
    ⟨hd.cfg.a, hd.cfg.b, hd.cfg.c, hd.cfg.d, hd.cfg.e⟩
  have hval : ∀ nip mac, Valid s nip mac → Valid { t with heap := put t.heap id (some L), list := ls, hash := put t.hash L.nip (some id) } nip mac := by
    intro nip mac v
    exact ⟨v.z, by show t.startIp ≤ nip; rw [hd.cfg.a]; exact v.lo, by show nip ≤ t.endIp; rw [hd.cfg.b]; exact v.hi, v.nb, v.na⟩
  refine ⟨hcfg, ⟨?_, ?_, ?_, ?_, ?_, ?_⟩, put_same _ _ _, ?_, ?_⟩
  · show ls.Nodup
    rw [h2.nodup_iff, List.nodup_cons]
    exact ⟨hd.notin, hd.sub.nodup h.nodup⟩
  · intro k
    show k ∈ ls ↔ ∃ l, put t.heap id (some L) k = some l
    rw [h2.mem_iff, List.mem_cons]
    by_cases e : k = id
    · subst e; simp [put_same]
    · rw [put_ne _ _ _ _ e, hd.live k e]; simp [e]
  · intro n k
    show put t.hash L.nip (some id) n = some k ↔ ∃ l, put t.heap id (some L) k = some l ∧ l.nip = n
    by_cases e : n = L.nip
    · subst e
      rw [put_same]
      constructor
      · intro a; cases a; exact ⟨L, put_same _ _ _, rfl⟩
      · rintro ⟨x, a, b⟩
        rcases (hheap k x).1 a with ⟨rfl, _⟩ | ⟨c, d⟩
        · rfl
        · exact absurd b (hd.other k c x d).2
    · rw [put_ne _ _ _ _ e, hd.hash]
      constructor
      · rintro ⟨a, x, b, c⟩; exact ⟨x, (hheap k x).2 (Or.inr ⟨a, b⟩), c⟩
      · rintro ⟨x, a, b⟩
        rcases (hheap k x).1 a with ⟨_, rfl⟩ | ⟨c, d⟩
        · exact absurd b.symm e
        · exact ⟨c, x, d, b⟩
  · intro i j x y hx hy e
    rcases (hheap i x).1 hx with ⟨rfl, rfl⟩ | ⟨c, d⟩
    · rcases (hheap j y).1 hy with ⟨rfl, _⟩ | ⟨c', d'⟩
      · rfl
      · exact absurd e.symm (hd.other j c' y d').1
    · rcases (hheap j y).1 hy with ⟨rfl, rfl⟩ | ⟨c', d'⟩
      · exact absurd e (hd.other i c x d).1
      · exact h.macs i j x y (hd.same i c x d) (hd.same j c' y d') e
  · intro i x hx
    apply hval
    rcases (hheap i x).1 hx with ⟨_, rfl⟩ | ⟨c, d⟩
    · exact hv
    · exact h.valid i x (hd.same i c x d)
  · intro k hk
    have hk' : t.next ≤ k := hk
    have e : k ≠ id := by
      rintro rfl; obtain ⟨l, hl⟩ := hd.here; rw [hd.fresh _ hk'] at hl; cases hl
    show put t.heap id (some L) k = none
    rw [put_ne _ _ _ _ e]; exact hd.fresh k hk'
  · intro x
    constructor
    · rintro ⟨k, hk⟩
      rcases (hheap k x).1 hk with ⟨_, rfl⟩ | ⟨c, d⟩
      · exact Or.inl rfl
      · exact Or.inr ⟨⟨k, hd.same k c x d⟩, hd.other k c x d⟩
    · rintro (rfl | ⟨⟨k, hk⟩, a, b⟩)
      · exact ⟨id, put_same _ _ _⟩
      · obtain ⟨c, d⟩ := hd.kept k x hk a b
        exact ⟨k, (hheap k x).2 (Or.inr ⟨c, d⟩)⟩
  · intro hs ho h0 h3
    have hex : ∀ x ∈ t.list, ex t.heap x = ex s.heap x := by
      intro x hx
      obtain ⟨l, hl⟩ := hlive x hx
      have := hd.same x (hne x hx) l hl
      simp [ex, hl, this]
    apply insert_ordered t.heap L.expire id _ t.list ls h1 hlive
    · intro x hx
      show ex (put t.heap id (some L)) x = _
      simp [ex, put_ne _ _ _ _ (hne x hx)]
    · show ex (put t.heap id (some L)) id = _
      simp [ex, put_same]
    · intro x hx
      obtain ⟨l, hl⟩ := hlive x hx
      have := hs l ⟨x, hd.same x (hne x hx) l hl⟩
      simpa [ex, hl] using this
    · exact h0
    · exact h3
    · have := ho.sublist hd.sub
      apply this.imp_of_mem
      intro a b ha hb hab
      rw [hex a ha, hex b hb]; exact hab

/-- The expiry `add_lease` enters. -/
def exp (s : Srv) (now expire : Int) : Int := if expire = 0 then now + s.leaseSeconds else expire

theorem add_spec {s : Srv} (h : Inv s) (now expire : Int) {nip mac : Nat} (hv : Valid s nip mac) (mem : Bool)
    (hm : mem = true ∨ ∃ l, Has s l ∧ (l.mac = mac ∨ l.nip = nip)) :
    ∃ t id, addLease s now expire mac nip mem = some (t, some id) ∧ Added s t id ⟨exp s now expire, nip, mac⟩ := by
  obtain ⟨t, id, h1, h2⟩ := get_spec h hv mem hm
  obtain ⟨ls, h3, h4⟩ := attach ⟨exp s now expire, nip, mac⟩ h hv h2
  refine ⟨_, id, ?_, h4⟩
  have e : (if expire = 0 then now + (t.leaseSeconds : Int) else expire) = exp s now expire := by
    rw [h2.cfg.d]; rfl
  unfold addLease
  rw [h1]
  simp only [Option.bind_eq_bind, Option.bind_some]
  rw [e, h3]
  rfl

theorem add_fail {s : Srv} (now expire : Int) {nip mac : Nat} (hv : ¬ Valid s nip mac) (mem : Bool) :
    addLease s now expire mac nip mem = some (s, none) := by
  unfold addLease; rw [get_fail hv]; rfl

theorem add_nomem {s : Srv} (h : Inv s) (now expire : Int) {nip mac : Nat}
    (hno : ∀ l, Has s l → l.mac ≠ mac ∧ l.nip ≠ nip) :
    addLease s now expire mac nip false = some (s, none) := by
  by_cases hv : Valid s nip mac
  · unfold addLease; rw [get_nomem h hv hno]; rfl
  · exact add_fail _ _ hv _

/-- Adding either fails and changes nothing, or enters the lease. -/
theorem add_cases {s : Srv} (h : Inv s) (now expire : Int) (nip mac : Nat) (mem : Bool) :
    (addLease s now expire mac nip mem = some (s, none)) ∨
    (Valid s nip mac ∧ ∃ t id, addLease s now expire mac nip mem = some (t, some id) ∧ Added s t id ⟨exp s now expire, nip, mac⟩) := by
  by_cases hv : Valid s nip mac
  · by_cases hm : mem = true ∨ ∃ l, Has s l ∧ (l.mac = mac ∨ l.nip = nip)
    · exact Or.inr ⟨hv, add_spec h now expire hv mem hm⟩
    · left
      have hmem : mem = false := by
        cases mem
        · rfl
        · exact absurd (Or.inl rfl) hm
      subst hmem
      apply add_nomem h
      intro l hl
      exact ⟨fun e => hm (Or.inr ⟨l, hl, Or.inl e⟩), fun e => hm (Or.inr ⟨l, hl, Or.inr e⟩)⟩
  · exact Or.inl (add_fail _ _ hv _)

/-! ## Removing a lease and changing its expiry -/

structure Removed (s t : Srv) (L : Lease) : Prop where
  cfg : Cfg s t
  inv : Inv t
  has : ∀ x, Has t x ↔ Has s x ∧ x ≠ L
  ord : Ordered s → Ordered t

theorem remove_spec {s : Srv} (h : Inv s) {id : Nat} {L : Lease} (hl : s.heap id = some L) :
    ∃ t, removeLease s id = some t ∧ Removed s t L := by
  refine ⟨_, by simp only [removeLease, hl]; rfl, ?_⟩
  have hheap : ∀ k x, put s.heap id none k = some x ↔ k ≠ id ∧ s.heap k = some x := by
    intro k x
    by_cases e : k = id
    · subst e; rw [put_same]; simp
    · rw [put_ne _ _ _ _ e]; simp [e]
  refine ⟨⟨rfl, rfl, rfl, rfl, rfl⟩, ⟨h.nodup.erase id, ?_, ?_, ?_, ?_, ?_⟩, ?_, ?_⟩
  · intro k
    show k ∈ s.list.erase id ↔ ∃ l, put s.heap id none k = some l
    rw [mem_erase_nodup h.nodup, h.live]
    constructor
    · rintro ⟨a, l, b⟩; exact ⟨l, (hheap k l).2 ⟨a, b⟩⟩
    · rintro ⟨l, a⟩; have := (hheap k l).1 a; exact ⟨this.1, l, this.2⟩
  · intro n k
    show put s.hash L.nip none n = some k ↔ ∃ l, put s.heap id none k = some l ∧ l.nip = n
    by_cases e : n = L.nip
    · subst e
      rw [put_same]
      constructor
      · intro a; cases a
      · rintro ⟨x, a, b⟩
        obtain ⟨c, d⟩ := (hheap k x).1 a
        exact absurd (h.nips d hl b) c
    · rw [put_ne _ _ _ _ e, h.hash]
      constructor
      · rintro ⟨x, a, b⟩
        refine ⟨x, (hheap k x).2 ⟨?_, a⟩, b⟩
        rintro rfl; rw [hl] at a; cases a; exact e b.symm
      · rintro ⟨x, a, b⟩; exact ⟨x, ((hheap k x).1 a).2, b⟩
  · intro i j x y hx hy
    exact h.macs i j x y ((hheap i x).1 hx).2 ((hheap j y).1 hy).2
  · intro i x hx
    have v := h.valid i x ((hheap i x).1 hx).2
    exact ⟨v.z, v.lo, v.hi, v.nb, v.na⟩
  · intro k hk
    show put s.heap id none k = none
    by_cases e : k = id
    · subst e; rw [put_same]
    · rw [put_ne _ _ _ _ e]; exact h.fresh k hk
  · intro x
    constructor
    · rintro ⟨k, hk⟩
      obtain ⟨a, b⟩ := (hheap k x).1 hk
      refine ⟨⟨k, b⟩, ?_⟩
      rintro rfl
      exact a (h.nips b hl rfl)
    · rintro ⟨⟨k, hk⟩, a⟩
      refine ⟨k, (hheap k x).2 ⟨?_, hk⟩⟩
      rintro rfl; rw [hl] at hk; cases hk; exact a rfl
  · intro ho
    have : (s.list.erase id).Pairwise (fun a b => ex s.heap b ≤ ex s.heap a) := ho.sublist List.erase_sublist
    show (s.list.erase id).Pairwise (fun a b => ex (put s.heap id none) b ≤ ex (put s.heap id none) a)
    apply this.imp_of_mem
    intro a b ha hb hab
    have e1 := ((mem_erase_nodup h.nodup _ _).1 ha).1
    have e2 := ((mem_erase_nodup h.nodup _ _).1 hb).1
    simpa [ex, put_ne _ _ _ _ e1, put_ne _ _ _ _ e2] using hab

theorem expire_spec {s : Srv} (h : Inv s) {id : Nat} {L : Lease} (hl : s.heap id = some L) (e : Int) :
    ∃ t, setExpire s id e = some t ∧ Added s t id { L with expire := e % 4294967296 } := by
  have hd : Det s (detach s id L.nip) id L.nip L.mac := by
    refine ⟨⟨rfl, rfl, rfl, rfl, rfl⟩, ?_, ⟨L, hl⟩, List.erase_sublist, fun j _ l hl => hl, ?_, ?_, ?_, ?_, h.fresh⟩
    · show id ∉ s.list.erase id
      rw [mem_erase_nodup h.nodup]; simp
    · intro j m hm h1 h2
      refine ⟨?_, hm⟩
      rintro rfl; rw [hl] at hm; cases hm; exact h2 rfl
    · intro j hj
      show j ∈ s.list.erase id ↔ _
      rw [mem_erase_nodup h.nodup, h.live]
      exact ⟨fun x => x.2, fun x => ⟨hj, x⟩⟩
    · intro n j
      show put s.hash L.nip none n = some j ↔ _
      by_cases e : n = L.nip
      · subst e
        rw [put_same]
        constructor
        · intro x; cases x
        · rintro ⟨a, m, b, c⟩
          exact absurd (h.nips b hl c) a
      · rw [put_ne _ _ _ _ e, h.hash]
        constructor
        · rintro ⟨m, a, b⟩
          refine ⟨?_, m, a, b⟩
          rintro rfl; rw [hl] at a; cases a; exact e b.symm
        · rintro ⟨_, m, a, b⟩; exact ⟨m, a, b⟩
    · intro j hj m hm
      exact ⟨fun e => hj (h.macs _ _ _ _ hm hl e), fun e => hj (h.nips hm hl e)⟩
  obtain ⟨ls, h3, h4⟩ := attach { L with expire := e % 4294967296 } h (h.valid id L hl) hd
  refine ⟨_, ?_, h4⟩
  have hins : insertSorted (put s.heap id (some { L with expire := e % 4294967296 })) (e % 4294967296) id (s.list.erase id) = some ls := by
    rw [← h3]
    have hni : ∀ x ∈ s.list.erase id, x ≠ id := fun x hx => ((mem_erase_nodup h.nodup _ _).1 hx).1
    show _ = insertSorted s.heap (e % 4294967296) id (s.list.erase id)
    generalize s.list.erase id = q at hni
    induction q with
    | nil => rfl
    | cons x t ih =>
      rw [insertSorted, insertSorted, put_ne _ _ _ _ (hni x (by simp)), ih (fun y hy => hni y (by simp [hy]))]
  have hhash : put (put s.hash L.nip none) L.nip (some id) = s.hash := by
    funext n
    by_cases e : n = L.nip
    · subst e; rw [put_same]; exact ((h.hash _ _).2 ⟨L, hl, rfl⟩).symm
    · rw [put_ne _ _ _ _ e, put_ne _ _ _ _ e]
  unfold setExpire
  rw [hl]
  simp only [Option.bind_eq_bind, Option.bind_some]
  rw [hins]
  simp [detach, hhash]

end Verif.Server
