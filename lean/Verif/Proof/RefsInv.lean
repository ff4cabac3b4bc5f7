import Verif.Proof.Refs
/-! # Reference counts: every operation keeps the books -/
namespace Verif.Refs
open Verif.Refs.Spec

theorem len_le_of_nodup : ∀ (l m : List Nat), l.Nodup → (∀ x ∈ l, x ∈ m) → l.length ≤ m.length := by
  intro l
  induction l with
  | nil => intro m _ _; simp
  | cons x l ih =>
    intro m hd hs
    have hx : x ∈ m := hs x (by simp)
    have := ih (m.erase x) (List.nodup_cons.mp hd).2 (by
      intro y hy
      have hyx : y ≠ x := fun e => (List.nodup_cons.mp hd).1 (e ▸ hy)
      exact (List.mem_erase_of_ne hyx).mpr (hs y (by simp [hy])))
    rw [List.length_erase_of_mem hx] at this
    have hpos : 0 < m.length := List.length_pos_of_mem hx
    simp only [List.length_cons]
    omega

theorem sub_of_len {l m : List Nat} (hl : l.Nodup) (hs : ∀ x ∈ l, x ∈ m) (hlen : m.length ≤ l.length) : ∀ x ∈ m, x ∈ l := by
  intro x hx
  apply Classical.byContradiction
  intro hn
  have := len_le_of_nodup (x :: l) m (List.nodup_cons.mpr ⟨hn, hl⟩) (by
    intro y hy
    rcases List.mem_cons.mp hy with rfl | hy
    · exact hx
    · exact hs y hy)
  simp only [List.length_cons] at this
  omega

/-- Nobody refers to the bus or to a message, and no message is in two queues. -/
def Nobody (s : St) (h : Held) : Prop := h.bus = 0 ∧ (∀ m, h.msg m = 0) ∧ ∀ m, ¬ Twice s m

/-- The messages the bus itself refers to. -/
def linked (s : St) : List Nat := s.outgoing ++ s.waiting ++ s.parser.toList

theorem linked_len (s : St) : (linked s).length = s.outgoing.length + s.waiting.length + (if s.parser.isSome then 1 else 0) := by
  unfold linked
  cases s.parser <;> simp [Nat.add_assoc]

variable {s : St} {h : Held} {e : Nat} {z : Option Nat} {L : List Nat}

theorem Good.linked_sub (g : Good s h e z L) : ∀ m ∈ linked s, m ∈ L := by
  intro m hm
  unfold linked at hm
  rw [g.mem]
  rcases List.mem_append.mp hm with hm | hm
  · rcases List.mem_append.mp hm with hm | hm
    · obtain ⟨it, e1, e2⟩ := (g.out m).mp hm
      refine ⟨⟨it, e1⟩, fun hz => ?_⟩
      obtain ⟨it', e', _, h', _⟩ := g.zombie m hz
      rw [e1] at e'; cases e'; rw [e2] at h'; cases h'
    · obtain ⟨it, e1, e2⟩ := (g.wait m).mp hm
      refine ⟨⟨it, e1⟩, fun hz => ?_⟩
      obtain ⟨it', e', _, _, h', _⟩ := g.zombie m hz
      rw [e1] at e'; cases e'; rw [e2] at h'; cases h'
  · have hp : s.parser = some m := by
      rcases Option.eq_none_or_eq_some s.parser with h | ⟨p, h⟩
      · rw [h] at hm; simp at hm
      · rw [h] at hm; simp at hm; rw [h, hm]
    obtain ⟨it, e1, _⟩ := g.parser m hp
    refine ⟨⟨it, e1⟩, fun hz => ?_⟩
    obtain ⟨it', _, _, _, _, _, h'⟩ := g.zombie m hz
    exact h' hp

theorem Good.linked_nodup (g : Good s h e z L) (ht : ∀ m, ¬ Twice s m) : (linked s).Nodup := by
  unfold linked
  rw [List.nodup_append, List.nodup_append]
  refine ⟨⟨g.nodupOut, g.nodupWait, ?_⟩, ?_, ?_⟩
  · intro a ha b hb hab
    subst hab
    exact ht a ⟨ha, hb⟩
  · cases s.parser <;> simp
  · intro a ha b hb hab
    subst hab
    have hp : s.parser = some a := by
      rcases Option.eq_none_or_eq_some s.parser with h | ⟨p, h⟩
      · rw [h] at hb; simp at hb
      · rw [h] at hb; simp at hb; rw [h, hb]
    obtain ⟨it, e1, h1, h2, _⟩ := g.parser a hp
    rcases List.mem_append.mp ha with ha | ha
    · obtain ⟨it', e', h'⟩ := (g.out a).mp ha
      rw [e1] at e'; cases e'; rw [h1] at h'; cases h'
    · obtain ⟨it', e', h'⟩ := (g.wait a).mp ha
      rw [e1] at e'; cases e'; rw [h2] at h'; cases h'

theorem Good.sub_linked (g : Good s h e z L) (hm : ∀ m, h.msg m = 0) : ∀ m ∈ L, m ∈ linked s := by
  intro m hL
  obtain ⟨⟨it, e1⟩, hz⟩ := (g.mem m).mp hL
  have hr := g.ref m it e1 hz
  unfold linked
  apply Classical.byContradiction
  intro hn
  have h1 : it.out = false := by
    cases ho : it.out
    · rfl
    · exact absurd (by simp [(g.out m).mpr ⟨it, e1, ho⟩]) hn
  have h2 : it.wait = false := by
    cases ho : it.wait
    · rfl
    · exact absurd (by simp [(g.wait m).mpr ⟨it, e1, ho⟩]) hn
  have h3 : (s.parser == some m) = false := by
    cases hb : (s.parser == some m)
    · rfl
    · rw [beq_iff_eq] at hb
      exact absurd (by simp [hb]) hn
  rw [hm m, h1, h2, h3] at hr
  simp [b2n] at hr
  omega

theorem Good.closed (g : Good s h 1 z L) (hn : Nobody s h) : Closed s 1 := by
  obtain ⟨hb, hm, ht⟩ := hn
  have hlen : L.length = (linked s).length :=
    Nat.le_antisymm (len_le_of_nodup _ _ g.nodup (g.sub_linked hm))
      (len_le_of_nodup _ _ (g.linked_nodup ht) g.linked_sub)
  rw [linked_len] at hlen
  have nz : ∀ m, m ∈ linked s → z ≠ some m := fun m hml => ((g.mem m).mp (g.linked_sub m hml)).2
  refine ⟨g.alive, ?_, ?_, ?_, g.nodupOut, g.nodupWait, ?_⟩
  · rw [g.bref, hb, hlen]; omega
  · intro m hmo
    obtain ⟨it, e1, e2⟩ := (g.out m).mp hmo
    have hw : it.wait = false := by
      cases hw : it.wait
      · rfl
      · exact absurd ⟨hmo, (g.wait m).mpr ⟨it, e1, hw⟩⟩ (ht m)
    have hp : s.parser ≠ some m := by
      intro hp
      obtain ⟨it', e', h', _⟩ := g.parser m hp
      rw [e1] at e'; cases e'; rw [e2] at h'; cases h'
    have hr := (g.ref m it e1 (nz m (by simp [linked, hmo]))).1
    rw [hm m, e2, hw] at hr
    have hp' : (s.parser == some m) = false := by simpa using hp
    rw [hp'] at hr
    exact ⟨it, e1, by simpa [b2n] using hr, e2, hw, hp⟩
  · intro m hmo
    obtain ⟨it, e1, e2⟩ := (g.wait m).mp hmo
    have hw : it.out = false := by
      cases hw : it.out
      · rfl
      · exact absurd ⟨(g.out m).mpr ⟨it, e1, hw⟩, hmo⟩ (ht m)
    have hp : s.parser ≠ some m := by
      intro hp
      obtain ⟨it', e', _, h', _⟩ := g.parser m hp
      rw [e1] at e'; cases e'; rw [e2] at h'; cases h'
    have hr := (g.ref m it e1 (nz m (by simp [linked, hmo]))).1
    rw [hm m, e2, hw] at hr
    have hp' : (s.parser == some m) = false := by simpa using hp
    rw [hp'] at hr
    exact ⟨it, e1, by simpa [b2n] using hr, hw, e2, hp⟩
  · intro p hp
    obtain ⟨it, e1, h1, h2, _⟩ := g.parser p hp
    have hr := (g.ref p it e1 (nz p (by simp [linked, hp]))).1
    rw [hm p, h1, h2, hp] at hr
    exact ⟨it, e1, by simpa [b2n] using hr, h1, h2⟩

theorem Good.test (g : Good s h 1 z L)
    (hle : s.bref ≤ s.outgoing.length + s.waiting.length + 1 + (if s.parser.isSome then 1 else 0))
    (hq : quiet s (s.outgoing ++ s.waiting) = some true) : Nobody s h := by
  rw [quiet_true] at hq
  have nz : ∀ m, m ∈ linked s → z ≠ some m := fun m hml => ((g.mem m).mp (g.linked_sub m hml)).2
  have ht : ∀ m, ¬ Twice s m := by
    rintro m ⟨h1, h2⟩
    obtain ⟨it, e1, e2⟩ := hq m (by simp [h1])
    obtain ⟨it', e', ho⟩ := (g.out m).mp h1
    rw [e1] at e'; cases e'
    obtain ⟨it', e', hw⟩ := (g.wait m).mp h2
    rw [e1] at e'; cases e'
    have hr := (g.ref m it e1 (nz m (by simp [linked, h1]))).1
    rw [ho, hw] at hr
    simp [b2n] at hr
    omega
  have h1 := len_le_of_nodup _ _ (g.linked_nodup ht) g.linked_sub
  have hb := g.bref
  have hl := linked_len s
  have hL : ∀ m ∈ L, m ∈ linked s := sub_of_len (g.linked_nodup ht) g.linked_sub (by omega)
  refine ⟨by omega, ?_, ht⟩
  intro m
  rcases Option.eq_none_or_eq_some (s.heap m) with hn | ⟨it, e1⟩
  · exact g.gone m hn
  · by_cases hz : z = some m
    · obtain ⟨_, _, _, _, _, h', _⟩ := g.zombie m hz
      exact h'
    · have hmL := hL m ((g.mem m).mpr ⟨⟨it, e1⟩, hz⟩)
      have hr := (g.ref m it e1 hz).1
      unfold linked at hmL
      rcases List.mem_append.mp hmL with hm | hm
      · obtain ⟨it', e', h'⟩ := hq m hm
        rw [e1] at e'; cases e'
        rcases List.mem_append.mp hm with hm | hm
        · obtain ⟨it', e', ho⟩ := (g.out m).mp hm
          rw [e1] at e'; cases e'
          rw [ho] at hr
          simp only [b2n, if_true] at hr
          omega
        · obtain ⟨it', e', ho⟩ := (g.wait m).mp hm
          rw [e1] at e'; cases e'
          rw [ho] at hr
          simp only [b2n, if_true] at hr
          omega
      · have hp : s.parser = some m := by
          rcases Option.eq_none_or_eq_some s.parser with h | ⟨p, h⟩
          · rw [h] at hm; simp at hm
          · rw [h] at hm; simp at hm; rw [h, hm]
        obtain ⟨_, _, _, _, h'⟩ := g.parser m hp
        exact h'

theorem Good.two (g : Good s h 1 z L) (hn : ¬ Nobody s h) : 1 < s.bref := by
  rw [g.bref]
  apply Classical.byContradiction
  intro hlt
  apply hn
  have hb : h.bus = 0 := by omega
  have hL : L = [] := List.length_eq_zero_iff.mp (by omega)
  refine ⟨hb, ?_, ?_⟩
  · intro m
    rcases Option.eq_none_or_eq_some (s.heap m) with hn | ⟨it, e1⟩
    · exact g.gone m hn
    · by_cases hz : z = some m
      · obtain ⟨_, _, _, _, _, h', _⟩ := g.zombie m hz
        exact h'
      · have := (g.mem m).mpr ⟨⟨it, e1⟩, hz⟩
        rw [hL] at this; simp at this
  · rintro m ⟨h1, _⟩
    have := g.linked_sub m (by simp [linked, h1])
    rw [hL] at this; simp at this

/-- The exact effect of dropping a reference of the bus. -/
theorem unref_ex (f : Nat) (g : Good s h 1 z L) :
    (Nobody s h → unref (f + 2) s = some (freed s)) ∧
    (¬ Nobody s h → unref (f + 2) s = some { s with bref := s.bref - 1 } ∧ 1 < s.bref) := by
  refine ⟨fun hn => unref_closed f s (g.closed hn), fun hn => ?_⟩
  have h2 := g.two hn
  refine ⟨?_, h2⟩
  by_cases hle : s.bref ≤ s.outgoing.length + s.waiting.length + 1 + (if s.parser.isSome then 1 else 0)
  · obtain ⟨q, hq⟩ := quiet_some s (s.outgoing ++ s.waiting) (by
      intro m hm
      exact ((g.mem m).mp (g.linked_sub m (by simp only [linked, List.mem_append]; left; simpa using hm))).1)
    cases q with
    | true => exact absurd (g.test hle hq) hn
    | false =>
      rw [unref, if_neg (by simp [g.alive]), if_neg (by omega)]
      unfold collect
      rw [if_pos hle, hq]
      simp only [Option.bind_some, Bool.false_eq_true, if_false, release]
      rw [if_neg (by simp [g.alive]), if_neg (by omega), if_pos (by omega)]
  · exact unref_skip (f + 1) s g.alive (by omega)

/-- All has been freed. -/
structure Dead (s : St) (h : Held) : Prop where
  alive : s.alive = false
  heap : ∀ m, s.heap m = none
  bus : h.bus = 0
  msg : ∀ m, h.msg m = 0
  out : s.outgoing = []
  wait : s.waiting = []
  parser : s.parser = none

/-- The invariant. -/
def Inv (s : St) (h : Held) : Prop := (∃ L, Good s h 0 none L ∧ 0 < s.bref) ∨ Dead s h

theorem Inv.good (hi : Inv s h) (hh : 0 < h.bus ∨ (∃ m, 0 < h.msg m) ∨ s.alive = true) : ∃ L, Good s h 0 none L ∧ 0 < s.bref := by
  rcases hi with hi | hd
  · exact hi
  · exfalso
    rcases hh with hh | ⟨m, hh⟩ | hh
    · have := hd.bus; omega
    · have := hd.msg m; omega
    · rw [hd.alive] at hh; cases hh

theorem Good.shift (g : Good s h 1 none L) : Good { s with bref := s.bref - 1 } h 0 none L :=
  ⟨g.alive, g.nodup, g.mem, by have := g.bref; show s.bref - 1 = _; omega, g.ref, g.out, g.wait, g.nodupOut, g.nodupWait,
    g.parser, g.gone, g.zombie⟩

theorem freed_dead (g : Good s h 1 none L) (hn : Nobody s h) : Dead (freed s) h := by
  refine ⟨rfl, ?_, hn.1, hn.2.1, rfl, rfl, rfl⟩
  intro m
  show (if m ∈ linked s then none else s.heap m) = none
  split
  · rfl
  · rename_i hl
    rcases Option.eq_none_or_eq_some (s.heap m) with hh | ⟨it, e1⟩
    · exact hh
    · exact absurd (g.sub_linked hn.2.1 m ((g.mem m).mpr ⟨⟨it, e1⟩, by simp⟩)) hl

/-- What a drop may do to the queues. -/
def Less (s s' : St) : Prop := (s'.waiting = s.waiting ∨ s'.waiting = []) ∧ (s'.parser = s.parser ∨ s'.parser = none)

theorem busUnref_ex (hi : Inv s h) (hb : 0 < h.bus) :
    ∃ s', (∀ f, unref (f + 2) s = some s') ∧ Inv s' { h with bus := h.bus - 1 } ∧ Less s s' ∧
      (s'.alive = false ↔ Nobody s { h with bus := h.bus - 1 }) := by
  obtain ⟨L, g, hp⟩ := hi.good (Or.inl hb)
  have g1 : Good s { h with bus := h.bus - 1 } 1 none L :=
    ⟨g.alive, g.nodup, g.mem, by have := g.bref; show s.bref = h.bus - 1 + L.length + 1; omega, g.ref, g.out, g.wait, g.nodupOut,
      g.nodupWait, g.parser, g.gone, g.zombie⟩
  by_cases hn : Nobody s { h with bus := h.bus - 1 }
  · exact ⟨_, fun f => (unref_ex f g1).1 hn, Or.inr (freed_dead g1 hn), ⟨Or.inr rfl, Or.inr rfl⟩, fun _ => hn, fun _ => rfl⟩
  · have h2 := g1.two hn
    refine ⟨_, fun f => ((unref_ex f g1).2 hn).1, Or.inl ⟨L, g1.shift, by show 0 < s.bref - 1; omega⟩, ⟨Or.inl rfl, Or.inl rfl⟩, ?_, fun h => absurd h hn⟩
    intro ha
    have := g.alive
    rw [show ({ s with bref := s.bref - 1 } : St).alive = s.alive from rfl, this] at ha
    cases ha

theorem put_msg (h : Held) (m n j : Nat) : (h.put m n).msg j = if j = m then n else h.msg j := rfl

theorem put_self (h : Held) (m n : Nat) : (h.put m n).msg m = n := by simp [put_msg]

theorem put_back (h : Held) (m n k : Nat) (hk : k = h.msg m) : (h.put m n).put m k = h := by
  cases h
  simp only [Held.put, Held.mk.injEq, true_and]
  funext j
  by_cases hj : j = m
  · simp [hj, hk]
  · simp [hj]

/-- One field of one message is changed. -/
theorem Good.mod (g : Good s h 0 none L) (m : Nat) (it it' : Item) (n : Nat) (out' wait' : List Nat)
    (hm : s.heap m = some it)
    (hr : it'.ref = n + b2n it'.out + b2n it'.wait + b2n (s.parser == some m)) (hpos : 0 < it'.ref)
    (ho : ∀ j, j ∈ out' ↔ if j = m then it'.out = true else j ∈ s.outgoing)
    (hw : ∀ j, j ∈ wait' ↔ if j = m then it'.wait = true else j ∈ s.waiting)
    (no : out'.Nodup) (nw : wait'.Nodup)
    (hp : s.parser = some m → it'.out = false ∧ it'.wait = false ∧ n = 0) :
    Good (({ s with outgoing := out', waiting := wait' } : St).set m (some it')) (h.put m n) 0 none L := by
  refine ⟨g.alive, g.nodup, ?_, g.bref, ?_, ?_, ?_, no, nw, ?_, ?_, ?_⟩
  · intro j
    rw [g.mem]
    by_cases hj : j = m
    · simp [St.set, hj, hm]
    · simp [St.set, hj]
  · intro j it'' hj _
    by_cases hjm : j = m
    · subst hjm
      rw [set_self] at hj
      cases hj
      exact ⟨by rw [put_self]; exact hr, hpos⟩
    · rw [set_other _ _ _ _ hjm] at hj
      rw [put_msg, if_neg hjm]
      exact g.ref j it'' hj (by simp)
  · intro j
    show j ∈ out' ↔ _
    rw [ho]
    by_cases hj : j = m
    · simp [hj, set_self]
    · rw [if_neg hj, g.out, set_other _ _ _ _ hj]
  · intro j
    show j ∈ wait' ↔ _
    rw [hw]
    by_cases hj : j = m
    · simp [hj, set_self]
    · rw [if_neg hj, g.wait, set_other _ _ _ _ hj]
  · intro p hp'
    have hp'' : s.parser = some p := hp'
    by_cases hj : p = m
    · subst hj
      obtain ⟨h1, h2, h3⟩ := hp hp''
      exact ⟨it', set_self _ _ _, h1, h2, by rw [put_self]; exact h3⟩
    · rw [set_other _ _ _ _ hj, put_msg, if_neg hj]
      exact g.parser p hp''
  · intro j hj
    by_cases hjm : j = m
    · subst hjm; rw [set_self] at hj; cases hj
    · rw [set_other _ _ _ _ hjm] at hj
      rw [put_msg, if_neg hjm]
      exact g.gone j hj
  · intro j hj; cases hj

theorem Good.out_flag (g : Good s h e z L) {m : Nat} {it : Item} (hm : s.heap m = some it) : m ∈ s.outgoing ↔ it.out = true := by
  rw [g.out]
  constructor
  · rintro ⟨it', e', h'⟩; rw [hm] at e'; cases e'; exact h'
  · exact fun h => ⟨it, hm, h⟩

theorem Good.wait_flag (g : Good s h e z L) {m : Nat} {it : Item} (hm : s.heap m = some it) : m ∈ s.waiting ↔ it.wait = true := by
  rw [g.wait]
  constructor
  · rintro ⟨it', e', h'⟩; rw [hm] at e'; cases e'; exact h'
  · exact fun h => ⟨it, hm, h⟩

/-- The exact effect of dropping a reference of a message. -/
theorem msgUnref_ex (m : Nat) (hi : Inv s h) (hm : 0 < h.msg m) :
    ∃ s', (∀ f, msgUnref (unref (f + 2)) s m = some s') ∧ Inv s' (h.put m (h.msg m - 1)) ∧ Less s s' ∧
      (s'.heap m = none ↔ h.msg m = 1 ∧ ¬ Queued s m) ∧
      (s'.alive = false ↔ h.msg m = 1 ∧ ¬ Queued s m ∧ Nobody s (h.put m (h.msg m - 1))) := by
  obtain ⟨L, g, hp⟩ := hi.good (Or.inr (Or.inl ⟨m, hm⟩))
  obtain ⟨it, e1⟩ : ∃ it, s.heap m = some it := by
    rcases Option.eq_none_or_eq_some (s.heap m) with hh | hh
    · have := g.gone m hh; omega
    · exact hh
  have hnp : s.parser ≠ some m := by
    intro hh
    obtain ⟨_, _, _, _, h'⟩ := g.parser m hh
    omega
  have hnp' : (s.parser == some m) = false := by simpa using hnp
  obtain ⟨hr, hpos⟩ := g.ref m it e1 (by simp)
  rw [hnp'] at hr
  have hq : (h.msg m = 1 ∧ ¬ Queued s m) ↔ it.ref = 1 := by
    unfold Queued
    rw [g.out_flag e1, g.wait_flag e1]
    cases ho : it.out <;> cases hw : it.wait <;> rw [ho, hw] at hr <;> simp [b2n] at hr ⊢ <;> omega
  by_cases h1 : it.ref = 1
  · obtain ⟨hm1, hnq⟩ := hq.mpr h1
    have hof : it.out = false := by
      cases ho : it.out
      · rfl
      · exact absurd (Or.inl ((g.out_flag e1).mpr ho)) hnq
    have hwf : it.wait = false := by
      cases ho : it.wait
      · rfl
      · exact absurd (Or.inr ((g.wait_flag e1).mpr ho)) hnq
    have hmL : m ∈ L := (g.mem m).mpr ⟨⟨it, e1⟩, by simp⟩
    have hlen := List.length_erase_of_mem hmL
    have hLpos := List.length_pos_of_mem hmL
    have hnm : m ∉ L.erase m := fun hh => by
      have := (List.Nodup.mem_erase_iff g.nodup).mp hh
      exact this.1 rfl
    let s1 : St := s.set m (some { it with ref := 0 })
    have hh1 : ∀ j, j ≠ m → s1.heap j = s.heap j := fun j hj => set_other _ _ _ _ hj
    have hh2 : s1.heap m = some { it with ref := 0 } := set_self _ _ _
    have g1 : Good s1 (h.put m (h.msg m - 1)) 1 (some m) (L.erase m) := by
      refine ⟨g.alive, g.nodup.erase m, ?_, ?_, ?_, ?_, ?_, g.nodupOut, g.nodupWait, ?_, ?_, ?_⟩
      · intro j
        rw [List.Nodup.mem_erase_iff g.nodup, g.mem]
        by_cases hj : j = m
        · simp [hj]
        · rw [hh1 j hj]
          have : ¬ m = j := fun e => hj e.symm
          simp [hj, this]
      · have := g.bref
        show s.bref = h.bus + (L.erase m).length + 1
        omega
      · intro j it' hj hz
        have hjm : j ≠ m := fun e => hz (by rw [e])
        rw [hh1 j hjm] at hj
        rw [put_msg, if_neg hjm]
        exact g.ref j it' hj (by simp)
      · intro j
        show j ∈ s.outgoing ↔ _
        by_cases hj : j = m
        · subst hj
          rw [g.out_flag e1, hh2]
          simp
        · rw [g.out, hh1 j hj]
      · intro j
        show j ∈ s.waiting ↔ _
        by_cases hj : j = m
        · subst hj
          rw [g.wait_flag e1, hh2]
          simp
        · rw [g.wait, hh1 j hj]
      · intro p hp'
        have hp'' : s.parser = some p := hp'
        have hpm : p ≠ m := fun e => hnp (e ▸ hp'')
        rw [hh1 p hpm, put_msg, if_neg hpm]
        exact g.parser p hp''
      · intro j hj
        have hjm : j ≠ m := fun e => by rw [e, hh2] at hj; cases hj
        rw [hh1 j hjm] at hj
        rw [put_msg, if_neg hjm]
        exact g.gone j hj
      · intro j hj
        cases hj
        exact ⟨_, hh2, rfl, hof, hwf, by rw [put_self]; omega, hnp⟩
    have e2 : ∀ f, msgUnref (unref (f + 2)) s m = (unref (f + 2) s1).map fun s => s.set m none := by
      intro f
      unfold msgUnref
      rw [e1]
      simp only
      rw [if_neg (by omega), if_neg (by omega)]
    have hT : Nobody s1 (h.put m (h.msg m - 1)) ↔ Nobody s (h.put m (h.msg m - 1)) := Iff.rfl
    by_cases hn : Nobody s1 (h.put m (h.msg m - 1))
    · refine ⟨(freed s1).set m none, ?_, Or.inr ?_, ⟨Or.inr rfl, Or.inr rfl⟩, ?_, ?_⟩
      · intro f; rw [e2, (unref_ex f g1).1 hn]; rfl
      · refine ⟨rfl, ?_, hn.1, hn.2.1, rfl, rfl, rfl⟩
        intro j
        by_cases hj : j = m
        · rw [hj, set_self]
        · rw [set_other _ _ _ _ hj]
          show (if j ∈ linked s1 then none else s1.heap j) = none
          split
          · rfl
          · rename_i hl
            rcases Option.eq_none_or_eq_some (s1.heap j) with hh | ⟨it', e'⟩
            · exact hh
            · exact absurd (g1.sub_linked hn.2.1 j ((g1.mem j).mpr ⟨⟨it', e'⟩, by
                intro hh; exact hj (Option.some.inj hh).symm⟩)) hl
      · rw [set_self]; exact ⟨fun _ => ⟨hm1, hnq⟩, fun _ => rfl⟩
      · exact ⟨fun _ => ⟨hm1, hnq, hn⟩, fun _ => rfl⟩
    · have h2 := g1.two hn
      refine ⟨({ s1 with bref := s1.bref - 1 } : St).set m none, ?_, Or.inl ⟨L.erase m, ?_, ?_⟩, ⟨Or.inl rfl, Or.inl rfl⟩, ?_, ?_⟩
      · intro f; rw [e2, ((unref_ex f g1).2 hn).1]; rfl
      · have hh3 : ∀ j, j ≠ m → (({ s1 with bref := s1.bref - 1 } : St).set m none).heap j = s.heap j := fun j hj => by
          rw [set_other _ _ _ _ hj]; exact hh1 j hj
        refine ⟨g.alive, g.nodup.erase m, ?_, ?_, ?_, ?_, ?_, g.nodupOut, g.nodupWait, ?_, ?_, ?_⟩
        · intro j
          by_cases hj : j = m
          · subst hj
            rw [set_self]
            simp [hnm]
          · rw [hh3 j hj, List.Nodup.mem_erase_iff g.nodup, g.mem]
            simp [hj]
        · have := g1.bref
          show s1.bref - 1 = h.bus + (L.erase m).length + 0
          have h3 : (h.put m (h.msg m - 1)).bus = h.bus := rfl
          omega
        · intro j it' hj _
          by_cases hjm : j = m
          · rw [hjm, set_self] at hj; cases hj
          · rw [hh3 j hjm] at hj
            rw [put_msg, if_neg hjm]
            exact g.ref j it' hj (by simp)
        · intro j
          show j ∈ s.outgoing ↔ _
          by_cases hj : j = m
          · subst hj
            rw [g.out_flag e1, set_self, hof]
            simp
          · rw [g.out, hh3 j hj]
        · intro j
          show j ∈ s.waiting ↔ _
          by_cases hj : j = m
          · subst hj
            rw [g.wait_flag e1, set_self, hwf]
            simp
          · rw [g.wait, hh3 j hj]
        · intro p hp'
          have hp'' : s.parser = some p := hp'
          have hpm : p ≠ m := fun e => hnp (e ▸ hp'')
          rw [hh3 p hpm, put_msg, if_neg hpm]
          exact g.parser p hp''
        · intro j hj
          by_cases hjm : j = m
          · rw [hjm, put_self]; omega
          · rw [hh3 j hjm] at hj
            rw [put_msg, if_neg hjm]
            exact g.gone j hj
        · intro j hj; cases hj
      · show 0 < s1.bref - 1
        omega
      · rw [set_self]; exact ⟨fun _ => ⟨hm1, hnq⟩, fun _ => rfl⟩
      · constructor
        · intro ha
          have ha' : s.alive = false := ha
          rw [g.alive] at ha'; cases ha'
        · intro hh; exact absurd hh.2.2 hn
  · have hnq : ¬ (h.msg m = 1 ∧ ¬ Queued s m) := fun hh => h1 (hq.mp hh)
    refine ⟨s.set m (some { it with ref := it.ref - 1 }), ?_, Or.inl ⟨L, ?_, hp⟩, ⟨Or.inl rfl, Or.inl rfl⟩, ?_, ?_⟩
    · intro f
      unfold msgUnref
      rw [e1]
      simp only
      rw [if_neg (by omega), if_pos (by omega)]
    · have := g.mod m it { it with ref := it.ref - 1 } (h.msg m - 1) s.outgoing s.waiting e1
        (by rw [hnp']; simp only [b2n] at hr ⊢; simp at hr ⊢; omega) (by show 0 < it.ref - 1; omega)
        (by intro j; split
            · rename_i hj; rw [hj, g.out_flag e1]
            · rfl)
        (by intro j; split
            · rename_i hj; rw [hj, g.wait_flag e1]
            · rfl)
        g.nodupOut g.nodupWait (fun hh => absurd hh hnp)
      exact this
    · rw [set_self]
      exact ⟨fun hh => by (cases hh), fun hh => absurd hh hnq⟩
    · constructor
      · intro ha
        have ha' : s.alive = false := ha
        rw [g.alive] at ha'; cases ha'
      · intro hh; exact absurd ⟨hh.1, hh.2.1⟩ hnq

/-- Taking a message out of the queue. -/
theorem unlinkOut_ex (m : Nat) (hi : Inv s h) (ha : s.alive = true) (hm : ∃ it, s.heap m = some it) :
    ∃ s', (∀ f, unlinkOut (unref (f + 2)) s m = some s') ∧ Inv s' h ∧ Less s s' := by
  obtain ⟨L, g, hp⟩ := hi.good (Or.inr (Or.inr ha))
  obtain ⟨it, e1⟩ := hm
  cases ho : it.out with
  | false =>
    refine ⟨s, ?_, hi, Or.inl rfl, Or.inl rfl⟩
    intro f
    unfold unlinkOut
    rw [e1]
    simp only
    rw [if_pos ho]
  | true =>
    have hnp : s.parser ≠ some m := by
      intro hh
      obtain ⟨_, e', h', _⟩ := g.parser m hh
      rw [e1] at e'; cases e'; rw [ho] at h'; cases h'
    have hnp' : (s.parser == some m) = false := by simpa using hnp
    obtain ⟨hr, hpos⟩ := g.ref m it e1 (by simp)
    have g1 := g.mod m it { it with out := false } (h.msg m + 1) (s.outgoing.erase m) s.waiting e1
      (by rw [hr, ho, hnp']; simp only [b2n, if_true, Bool.false_eq_true, if_false]) hpos
      (by intro j; rw [List.Nodup.mem_erase_iff g.nodupOut]; split
          · rename_i hj; simp [hj]
          · rename_i hj; simp [hj])
      (by intro j; split
          · rename_i hj; rw [hj, g.wait_flag e1]
          · rfl)
      (g.nodupOut.erase m) g.nodupWait (fun hh => absurd hh hnp)
    obtain ⟨s', e2, i2, l2, -, -⟩ := msgUnref_ex m (Or.inl ⟨L, g1, hp⟩) (by rw [put_self]; omega)
    refine ⟨s', ?_, ?_, l2⟩
    · intro f
      unfold unlinkOut
      rw [e1]
      simp only
      rw [if_neg (by simp [ho]), if_neg (by simp [ha])]
      exact e2 f
    · rw [put_back h m _ _ (by rw [put_self]; omega)] at i2
      exact i2

/-- Taking a message out of the table. -/
theorem unlinkWait_ex (m : Nat) (hi : Inv s h) (ha : s.alive = true) (hm : ∃ it, s.heap m = some it) :
    ∃ s', (∀ f, unlinkWait (unref (f + 2)) s m = some s') ∧ Inv s' h ∧ (s.waiting = [] → Less s s') := by
  obtain ⟨L, g, hp⟩ := hi.good (Or.inr (Or.inr ha))
  obtain ⟨it, e1⟩ := hm
  cases ho : it.wait with
  | false =>
    refine ⟨s, ?_, hi, fun _ => ⟨Or.inl rfl, Or.inl rfl⟩⟩
    intro f
    unfold unlinkWait
    rw [e1]
    simp only
    rw [if_pos ho]
  | true =>
    have hnp : s.parser ≠ some m := by
      intro hh
      obtain ⟨_, e', _, h', _⟩ := g.parser m hh
      rw [e1] at e'; cases e'; rw [ho] at h'; cases h'
    have hnp' : (s.parser == some m) = false := by simpa using hnp
    obtain ⟨hr, hpos⟩ := g.ref m it e1 (by simp)
    have g1 := g.mod m it { it with wait := false } (h.msg m + 1) s.outgoing (s.waiting.erase m) e1
      (by rw [hr, ho, hnp']; simp only [b2n, if_true, Bool.false_eq_true, if_false]; omega) hpos
      (by intro j; split
          · rename_i hj; rw [hj, g.out_flag e1]
          · rfl)
      (by intro j; rw [List.Nodup.mem_erase_iff g.nodupWait]; split
          · rename_i hj; simp [hj]
          · rename_i hj; simp [hj])
      g.nodupOut (g.nodupWait.erase m) (fun hh => absurd hh hnp)
    obtain ⟨s', e2, i2, l2, -, -⟩ := msgUnref_ex m (Or.inl ⟨L, g1, hp⟩) (by rw [put_self]; omega)
    refine ⟨s', ?_, ?_, ?_⟩
    · intro f
      unfold unlinkWait
      rw [e1]
      simp only
      rw [if_neg (by simp [ho]), if_neg (by simp [ha])]
      exact e2 f
    · rw [put_back h m _ _ (by rw [put_self]; omega)] at i2
      exact i2
    · intro hw
      have := (g.wait_flag e1).mpr ho
      rw [hw] at this; simp at this

end Verif.Refs
