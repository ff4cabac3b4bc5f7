import Verif.Spec.Refs
/-! # Reference counts: invariant and the exact effect of dropping a reference -/
namespace Verif.Refs
open Verif.Refs.Spec

/-- 1 for true -/
def b2n (b : Bool) : Nat := if b then 1 else 0

/-- The state of a living bus; `e` references more than accounted for, `z` a message about to be freed. -/
structure Good (s : St) (h : Held) (e : Nat) (z : Option Nat) (L : List Nat) : Prop where
  alive : s.alive = true
  nodup : L.Nodup
  mem : ∀ m, m ∈ L ↔ (∃ it, s.heap m = some it) ∧ z ≠ some m
  bref : s.bref = h.bus + L.length + e
  ref : ∀ m it, s.heap m = some it → z ≠ some m →
    it.ref = h.msg m + b2n it.out + b2n it.wait + b2n (s.parser == some m) ∧ 0 < it.ref
  out : ∀ m, m ∈ s.outgoing ↔ ∃ it, s.heap m = some it ∧ it.out = true
  wait : ∀ m, m ∈ s.waiting ↔ ∃ it, s.heap m = some it ∧ it.wait = true
  nodupOut : s.outgoing.Nodup
  nodupWait : s.waiting.Nodup
  parser : ∀ p, s.parser = some p → ∃ it, s.heap p = some it ∧ it.out = false ∧ it.wait = false ∧ h.msg p = 0
  gone : ∀ m, s.heap m = none → h.msg m = 0
  zombie : ∀ m, z = some m → ∃ it, s.heap m = some it ∧ it.ref = 0 ∧ it.out = false ∧ it.wait = false ∧ h.msg m = 0 ∧
    s.parser ≠ some m

/-- Only circular references are left. -/
structure Closed (s : St) (n : Nat) : Prop where
  alive : s.alive = true
  bref : s.bref = s.outgoing.length + s.waiting.length + (if s.parser.isSome then 1 else 0) + n
  out : ∀ m ∈ s.outgoing, ∃ it, s.heap m = some it ∧ it.ref = 1 ∧ it.out = true ∧ it.wait = false ∧ s.parser ≠ some m
  wait : ∀ m ∈ s.waiting, ∃ it, s.heap m = some it ∧ it.ref = 1 ∧ it.out = false ∧ it.wait = true ∧ s.parser ≠ some m
  nodupOut : s.outgoing.Nodup
  nodupWait : s.waiting.Nodup
  parser : ∀ p, s.parser = some p → ∃ it, s.heap p = some it ∧ it.ref = 1 ∧ it.out = false ∧ it.wait = false

theorem unref_skip (f : Nat) (s : St) (ha : s.alive = true)
    (h : s.bref > s.outgoing.length + s.waiting.length + 1 + (if s.parser.isSome then 1 else 0)) :
    unref (f + 1) s = some { s with bref := s.bref - 1 } := by
  unfold unref collect
  rw [if_neg (by simp [ha]), if_neg (by omega), if_neg (by omega)]
  simp only [Option.bind_some, release]
  rw [if_neg (by simp [ha]), if_neg (by omega), if_pos (by omega)]

/-- the memory after the messages in a list were freed -/
def wipe (h : Nat → Option Item) (l : List Nat) : Nat → Option Item := fun j => if j ∈ l then none else h j

theorem set_self (s : St) (m : Nat) (it : Option Item) : (s.set m it).heap m = it := by simp [St.set]

theorem set_other (s : St) (m j : Nat) (it : Option Item) (h : j ≠ m) : (s.set m it).heap j = s.heap j := by simp [St.set, h]

theorem msgUnref_last (f : Nat) (s : St) (m : Nat) (it : Item) (hm : s.heap m = some it) (hr : it.ref = 1)
    (ha : s.alive = true) (h : s.bref > s.outgoing.length + s.waiting.length + 1 + (if s.parser.isSome then 1 else 0)) :
    msgUnref (unref (f + 1)) s m = some ({ s with bref := s.bref - 1 }.set m none) := by
  unfold msgUnref
  rw [hm]
  simp only
  rw [if_neg (by omega), if_neg (by omega), unref_skip f (s.set m (some { it with ref := 0 })) ha h]
  simp only [Option.map_some, Option.some.injEq, St.set]
  congr 1
  funext j
  by_cases hj : j = m <;> simp [hj]

theorem emptyOut_ex (f : Nat) : ∀ (n : Nat) (s : St), Closed s 1 → n = s.outgoing.length →
    ∃ s', emptyOut (unref (f + 1)) n s = some s' ∧ Closed s' 1 ∧ s'.outgoing = [] ∧ s'.waiting = s.waiting ∧
      s'.parser = s.parser ∧ s'.heap = wipe s.heap s.outgoing := by
  intro n
  induction n with
  | zero =>
    intro s hc hn
    have ho : s.outgoing = [] := List.length_eq_zero_iff.mp hn.symm
    refine ⟨s, ?_, hc, ho, rfl, rfl, ?_⟩
    · unfold emptyOut
      rw [if_neg (by simp [hc.alive]), ho]
    · funext j; simp [wipe, ho]
  | succ n ih =>
    intro s hc hn
    cases ho : s.outgoing with
    | nil => rw [ho] at hn; simp at hn
    | cons m t =>
      obtain ⟨it, hm, hr, h1, h2, h3⟩ := hc.out m (by simp [ho])
      have hnd := hc.nodupOut
      rw [ho] at hnd
      have hmt : m ∉ t := (List.nodup_cons.mp hnd).1
      have hmw : m ∉ s.waiting := by
        intro hw
        obtain ⟨it', e, _, e', _⟩ := hc.wait m hw
        rw [hm] at e; cases e; rw [h1] at e'; cases e'
      have hb := hc.bref
      rw [ho, List.length_cons] at hb
      have e1 : unlinkOut (unref (f + 1)) s m =
          some (({ s with outgoing := t, bref := s.bref - 1 } : St).set m none) := by
        unfold unlinkOut
        rw [hm]
        simp only
        rw [if_neg (by simp [h1]), if_neg (by simp [hc.alive])]
        have hl : s.outgoing.erase m = t := by rw [ho, List.erase_cons_head]
        rw [hl, msgUnref_last f (({ s with outgoing := t } : St).set m (some { it with out := false })) m { it with out := false }
          (set_self _ _ _) hr hc.alive (by
          simp only [St.set]
          omega)]
        simp only [Option.some.injEq, St.set]
        congr 1
        funext j
        by_cases hj : j = m <;> simp [hj]
      have hc' : Closed (({ s with outgoing := t, bref := s.bref - 1 } : St).set m none) 1 := by
        refine ⟨hc.alive, ?_, ?_, ?_, (List.nodup_cons.mp hnd).2, hc.nodupWait, ?_⟩
        · simp only [St.set]; omega
        · intro j hj
          simp only [St.set] at hj ⊢
          have : j ≠ m := fun e => hmt (e ▸ hj)
          obtain ⟨it', e⟩ := hc.out j (by rw [ho]; simp [hj])
          exact ⟨it', by simpa [this] using e⟩
        · intro j hj
          simp only [St.set] at hj ⊢
          have : j ≠ m := fun e => hmw (e ▸ hj)
          obtain ⟨it', e⟩ := hc.wait j hj
          exact ⟨it', by simpa [this] using e⟩
        · intro p hp
          simp only [St.set] at hp ⊢
          have : p ≠ m := fun e => h3 (e ▸ hp)
          obtain ⟨it', e⟩ := hc.parser p hp
          exact ⟨it', by simpa [this] using e⟩
      obtain ⟨s', e2, c', o', w', p', hh⟩ := ih _ hc' (by simp [St.set]; rw [ho] at hn; simpa using hn)
      refine ⟨s', ?_, c', o', w', p', ?_⟩
      · unfold emptyOut
        rw [if_neg (by simp [hc.alive]), ho]
        simp only [e1, Option.bind_some, e2]
      · rw [hh]
        funext j
        simp only [wipe, St.set, List.mem_cons]
        by_cases hj : j = m
        · simp [hj]
        · simp [hj]

theorem emptyWait_ex (f : Nat) : ∀ (n : Nat) (s : St), Closed s 1 → n = s.waiting.length →
    ∃ s', emptyWait (unref (f + 1)) n s = some s' ∧ Closed s' 1 ∧ s'.waiting = [] ∧ s'.outgoing = s.outgoing ∧
      s'.parser = s.parser ∧ s'.heap = wipe s.heap s.waiting := by
  intro n
  induction n with
  | zero =>
    intro s hc hn
    have ho : s.waiting = [] := List.length_eq_zero_iff.mp hn.symm
    refine ⟨s, ?_, hc, ho, rfl, rfl, ?_⟩
    · unfold emptyWait
      rw [if_neg (by simp [hc.alive]), ho]
    · funext j; simp [wipe, ho]
  | succ n ih =>
    intro s hc hn
    cases ho : s.waiting with
    | nil => rw [ho] at hn; simp at hn
    | cons m t =>
      obtain ⟨it, hm, hr, h1, h2, h3⟩ := hc.wait m (by simp [ho])
      have hnd := hc.nodupWait
      rw [ho] at hnd
      have hmt : m ∉ t := (List.nodup_cons.mp hnd).1
      have hmw : m ∉ s.outgoing := by
        intro hw
        obtain ⟨it', e, _, e', _⟩ := hc.out m hw
        rw [hm] at e; cases e; rw [h1] at e'; cases e'
      have hb := hc.bref
      rw [ho, List.length_cons] at hb
      have e1 : unlinkWait (unref (f + 1)) s m =
          some (({ s with waiting := t, bref := s.bref - 1 } : St).set m none) := by
        unfold unlinkWait
        rw [hm]
        simp only
        rw [if_neg (by simp [h2]), if_neg (by simp [hc.alive])]
        have hl : s.waiting.erase m = t := by rw [ho, List.erase_cons_head]
        rw [hl, msgUnref_last f (({ s with waiting := t } : St).set m (some { it with wait := false })) m { it with wait := false }
          (set_self _ _ _) hr hc.alive (by
          simp only [St.set]
          omega)]
        simp only [Option.some.injEq, St.set]
        congr 1
        funext j
        by_cases hj : j = m <;> simp [hj]
      have hc' : Closed (({ s with waiting := t, bref := s.bref - 1 } : St).set m none) 1 := by
        refine ⟨hc.alive, ?_, ?_, ?_, hc.nodupOut, (List.nodup_cons.mp hnd).2, ?_⟩
        · simp only [St.set]; omega
        · intro j hj
          simp only [St.set] at hj ⊢
          have : j ≠ m := fun e => hmw (e ▸ hj)
          obtain ⟨it', e⟩ := hc.out j hj
          exact ⟨it', by simpa [this] using e⟩
        · intro j hj
          simp only [St.set] at hj ⊢
          have : j ≠ m := fun e => hmt (e ▸ hj)
          obtain ⟨it', e⟩ := hc.wait j (by rw [ho]; simp [hj])
          exact ⟨it', by simpa [this] using e⟩
        · intro p hp
          simp only [St.set] at hp ⊢
          have : p ≠ m := fun e => h3 (e ▸ hp)
          obtain ⟨it', e⟩ := hc.parser p hp
          exact ⟨it', by simpa [this] using e⟩
      obtain ⟨s', e2, c', o', w', p', hh⟩ := ih _ hc' (by simp [St.set]; rw [ho] at hn; simpa using hn)
      refine ⟨s', ?_, c', o', w', p', ?_⟩
      · unfold emptyWait
        rw [if_neg (by simp [hc.alive]), ho]
        simp only [e1, Option.bind_some, e2]
      · rw [hh]
        funext j
        simp only [wipe, St.set, List.mem_cons]
        by_cases hj : j = m
        · simp [hj]
        · simp [hj]

theorem dropParser_ex (f : Nat) (s : St) (hc : Closed s 1) (ho : s.outgoing = []) (hw : s.waiting = []) :
    dropParser (unref (f + 1)) s = some { s with
      bref := 1, parser := none, heap := wipe s.heap s.parser.toList } := by
  have hb := hc.bref
  rw [ho, hw] at hb
  unfold dropParser
  rcases Option.eq_none_or_eq_some s.parser with hp | ⟨p, hp⟩
  · rw [hp]
    rw [hp] at hb
    simp at hb
    simp only [Option.some.injEq]
    cases s
    simp only at hp hb
    subst hp; subst hb
    simp only [St.mk.injEq, true_and, and_true]
    funext j
    simp [wipe]
  · obtain ⟨it, e, hr, h1, h2⟩ := hc.parser p hp
    rw [hp] at hb
    simp at hb
    have hn : unref (f + 1) (s.set p (some { it with ref := 0 })) =
        some { s.set p (some { it with ref := 0 }) with bref := 1, parser := none } := by
      unfold unref collect
      simp only [St.set, ho, hw, hp, hb, hc.alive]
      rw [if_neg (by simp), if_neg (by simp), if_pos (by simp)]
      simp [quiet, dropAll, emptyOut, emptyWait, ho, hw, hc.alive, dropParser, hp, msgUnref, release]
    rw [hp]
    simp only
    unfold msgUnref
    rw [e]
    simp only
    rw [if_neg (by omega), if_neg (by omega), hn]
    simp only [Option.map_some, Option.bind_some, St.set, hc.alive]
    simp only [Bool.true_eq_false, if_false, Option.some.injEq, Option.toList_some, wipe, List.mem_singleton]
    congr 1
    funext j
    by_cases hj : j = p <;> simp [hj, wipe]

theorem quiet_true (s : St) : ∀ l : List Nat, quiet s l = some true ↔ ∀ m ∈ l, ∃ it, s.heap m = some it ∧ it.ref ≤ 1 := by
  intro l
  induction l with
  | nil => simp [quiet]
  | cons m t ih =>
    unfold quiet
    rcases Option.eq_none_or_eq_some (s.heap m) with h | ⟨it, h⟩
    · rw [h]; simp [h]
    · rw [h]
      simp only
      by_cases hr : it.ref > 1
      · rw [if_pos hr]
        simp [h]
        intro h'; omega
      · rw [if_neg hr, ih]
        simp only [List.mem_cons, forall_eq_or_imp]
        constructor
        · intro h'; exact ⟨⟨it, h, by omega⟩, h'⟩
        · intro h'; exact h'.2

theorem quiet_some (s : St) : ∀ l : List Nat, (∀ m ∈ l, ∃ it, s.heap m = some it) → ∃ q, quiet s l = some q := by
  intro l
  induction l with
  | nil => intro _; exact ⟨true, rfl⟩
  | cons m t ih =>
    intro h
    obtain ⟨it, e⟩ := h m (by simp)
    unfold quiet
    rw [e]
    simp only
    split
    · exact ⟨false, rfl⟩
    · exact ih fun j hj => h j (by simp [hj])

/-- The freed state. -/
def freed (s : St) : St :=
  { bref := 0, alive := false, heap := wipe s.heap (s.outgoing ++ s.waiting ++ s.parser.toList), outgoing := [], waiting := [],
    parser := none }

theorem unref_closed (f : Nat) (s : St) (hc : Closed s 1) : unref (f + 2) s = some (freed s) := by
  have hb := hc.bref
  have hq : quiet s (s.outgoing ++ s.waiting) = some true := by
    rw [quiet_true]
    intro m hm
    rcases List.mem_append.mp hm with hm | hm
    · obtain ⟨it, e, h, _⟩ := hc.out m hm; exact ⟨it, e, by omega⟩
    · obtain ⟨it, e, h, _⟩ := hc.wait m hm; exact ⟨it, e, by omega⟩
  obtain ⟨s1, e1, c1, o1, w1, p1, h1⟩ := emptyOut_ex f _ s hc rfl
  obtain ⟨s2, e2, c2, w2, o2, p2, h2⟩ := emptyWait_ex f _ s1 c1 rfl
  have e3 := dropParser_ex f s2 c2 (by rw [o2, o1]) w2
  rw [unref]
  rw [if_neg (by simp [hc.alive]), if_neg (by omega)]
  unfold collect
  rw [if_pos (by omega), hq]
  simp only [Option.bind_some, if_true]
  unfold dropAll
  rw [e1]
  simp only [Option.bind_some, e2, e3]
  unfold release
  simp only [c2.alive, o2, o1, w2]
  simp only [Bool.true_eq_false, if_false, Nat.one_ne_zero, Nat.sub_self, ne_eq, not_true_eq_false, Option.isSome_none,
    Bool.false_eq_true, or_self]
  simp only [Option.some.injEq, freed]
  congr 1
  rw [h2, h1, p2, p1, w1]
  funext j
  simp only [wipe, List.mem_append]
  by_cases a : j ∈ s.outgoing <;> by_cases b : j ∈ s.waiting <;> by_cases c : j ∈ s.parser.toList <;> simp [a, b, c]

end Verif.Refs
