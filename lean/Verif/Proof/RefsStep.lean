import Verif.Proof.RefsInv
/-! # Reference counts: one step of a history -/
namespace Verif.Refs
open Verif.Refs.Spec

variable {s : St} {h : Held} {L : List Nat}

theorem Good.born (g : Good s h 0 none L) (m : Nat) (hm : s.heap m = none) (par : Option Nat) (n : Nat)
    (hpar : (par = s.parser ∧ n = 1) ∨ (s.parser = none ∧ par = some m ∧ n = 0)) :
    Good ({ ({ s with bref := s.bref + 1 } : St).set m (some { ref := 1 }) with parser := par }) (h.put m n) 0 none (m :: L) := by
  have hnp : s.parser ≠ some m := by
    intro hh
    obtain ⟨_, e', _⟩ := g.parser m hh
    rw [hm] at e'; cases e'
  have hmL : m ∉ L := by
    intro hh
    obtain ⟨⟨_, e'⟩, _⟩ := (g.mem m).mp hh
    rw [hm] at e'; cases e'
  have ho : m ∉ s.outgoing := by
    intro hh
    obtain ⟨_, e', _⟩ := (g.out m).mp hh
    rw [hm] at e'; cases e'
  have hw : m ∉ s.waiting := by
    intro hh
    obtain ⟨_, e', _⟩ := (g.wait m).mp hh
    rw [hm] at e'; cases e'
  have hs : ∀ j, j ≠ m → ({ ({ s with bref := s.bref + 1 } : St).set m (some { ref := 1 }) with parser := par }).heap j = s.heap j := by
    intro j hj; exact set_other _ _ _ _ hj
  have hh : ({ ({ s with bref := s.bref + 1 } : St).set m (some { ref := 1 }) with parser := par }).heap m = some { ref := 1 } :=
    set_self _ _ _
  refine ⟨g.alive, List.nodup_cons.mpr ⟨hmL, g.nodup⟩, ?_, ?_, ?_, ?_, ?_, g.nodupOut, g.nodupWait, ?_, ?_, ?_⟩
  · intro j
    by_cases hj : j = m
    · subst hj; rw [hh]; simp
    · rw [hs j hj, List.mem_cons, g.mem]; simp [hj]
  · have := g.bref
    show s.bref + 1 = h.bus + (m :: L).length + 0
    simp only [List.length_cons]
    omega
  · intro j it hj _
    by_cases hjm : j = m
    · subst hjm
      rw [hh] at hj
      cases hj
      rw [put_self]
      refine ⟨?_, by simp⟩
      show 1 = n + b2n false + b2n false + b2n (par == some j)
      rcases hpar with ⟨rfl, rfl⟩ | ⟨_, rfl, rfl⟩
      · have : (s.parser == some j) = false := by simpa using hnp
        simp [b2n, this]
      · simp [b2n]
    · rw [hs j hjm] at hj
      rw [put_msg, if_neg hjm]
      obtain ⟨h1, h2⟩ := g.ref j it hj (by simp)
      refine ⟨?_, h2⟩
      show it.ref = h.msg j + b2n it.out + b2n it.wait + b2n (par == some j)
      rw [h1]
      rcases hpar with ⟨rfl, _⟩ | ⟨h1, rfl, _⟩
      · rfl
      · have h2 : (some m == some j) = false := by simpa using fun e : m = j => hjm e.symm
        rw [h1, h2]
        rfl
  · intro j
    show j ∈ s.outgoing ↔ _
    by_cases hj : j = m
    · subst hj; rw [hh]; simp [ho]
    · rw [g.out, hs j hj]
  · intro j
    show j ∈ s.waiting ↔ _
    by_cases hj : j = m
    · subst hj; rw [hh]; simp [hw]
    · rw [g.wait, hs j hj]
  · intro p hp
    have hp' : par = some p := hp
    rcases hpar with ⟨rfl, _⟩ | ⟨_, rfl, rfl⟩
    · have hpm : p ≠ m := fun e => hnp (e ▸ hp')
      rw [hs p hpm, put_msg, if_neg hpm]
      exact g.parser p hp'
    · cases hp'
      exact ⟨_, hh, rfl, rfl, put_self _ _ _⟩
  · intro j hj
    by_cases hjm : j = m
    · rw [hjm, hh] at hj; cases hj
    · rw [hs j hjm] at hj
      rw [put_msg, if_neg hjm]
      exact g.gone j hj
  · intro j hj; cases hj

theorem put_same (h : Held) (m : Nat) : h.put m (h.msg m) = h := by
  cases h
  simp only [Held.put, Held.mk.injEq, true_and]
  funext j
  by_cases hj : j = m
  · simp [hj]
  · simp [hj]

theorem Good.heap_of (g : Good s h 0 none L) {m : Nat} (hm : 0 < h.msg m ∨ m ∈ s.outgoing ∨ m ∈ s.waiting) :
    (∃ it, s.heap m = some it) ∧ s.parser ≠ some m := by
  have h1 : ∃ it, s.heap m = some it := by
    rcases hm with hm | hm | hm
    · rcases Option.eq_none_or_eq_some (s.heap m) with hh | hh
      · have := g.gone m hh; omega
      · exact hh
    · obtain ⟨it, e1, _⟩ := (g.out m).mp hm; exact ⟨it, e1⟩
    · obtain ⟨it, e1, _⟩ := (g.wait m).mp hm; exact ⟨it, e1⟩
  refine ⟨h1, fun hp => ?_⟩
  obtain ⟨it, e1, ho, hw, hz⟩ := g.parser m hp
  rcases hm with hm | hm | hm
  · omega
  · rw [(g.out_flag e1)] at hm; rw [ho] at hm; cases hm
  · rw [(g.wait_flag e1)] at hm; rw [hw] at hm; cases hm

/-- One legal step is defined, keeps the books, and does the same whatever the bound. -/
theorem step_ex (wpas : Bool) (op : Op) (hi : Inv s h) (hw : wpas = true → s.waiting = [] ∧ s.parser = none)
    (a : Allowed wpas op) (l : Legal s h op) :
    ∃ s' h', (∀ f, Spec.step (f + 2) wpas s h op = some (s', h')) ∧ Inv s' h' ∧
      (wpas = true → s'.waiting = [] ∧ s'.parser = none) := by
  have less : ∀ s', Less s s' → (wpas = true → s'.waiting = [] ∧ s'.parser = none) := by
    rintro s' ⟨h1, h2⟩ hwp
    obtain ⟨h3, h4⟩ := hw hwp
    rw [h3] at h1; rw [h4] at h2
    exact ⟨h1.elim id id, h2.elim id id⟩
  cases op with
  | ref =>
    obtain ⟨L, g, hp⟩ := hi.good (by simpa [Legal] using l)
    refine ⟨{ s with bref := s.bref + 1 }, { h with bus := h.bus + 1 }, ?_, Or.inl ⟨L, ?_, Nat.succ_pos _⟩, hw⟩
    · intro f
      simp only [Spec.step, busRef]
      rw [if_neg (by simp [g.alive]), if_neg (by omega)]
      rfl
    · exact ⟨g.alive, g.nodup, g.mem, by have := g.bref; show s.bref + 1 = h.bus + 1 + L.length + 0; omega, g.ref, g.out, g.wait,
        g.nodupOut, g.nodupWait, g.parser, g.gone, g.zombie⟩
  | unref =>
    obtain ⟨s', e1, i1, l1, _⟩ := busUnref_ex hi l
    exact ⟨s', _, fun f => by simp only [Spec.step, e1 f]; rfl, i1, less s' l1⟩
  | new m =>
    obtain ⟨hl, hm⟩ := l
    obtain ⟨L, g, hp⟩ := hi.good (by rcases hl with h | h <;> simp [h])
    refine ⟨({ s with bref := s.bref + 1 } : St).set m (some { ref := 1 }), h.put m 1, ?_,
      Or.inl ⟨m :: L, g.born m hm s.parser 1 (Or.inl ⟨rfl, rfl⟩), Nat.succ_pos _⟩, hw⟩
    intro f
    simp only [Spec.step, newMsg, busRef]
    rw [if_neg (by simp [g.alive]), if_neg (by omega)]
    rfl
  | refMsg m =>
    obtain ⟨L, g, hp⟩ := hi.good (by
      rcases l with h | h
      · exact Or.inr (Or.inl ⟨m, h⟩)
      · exact Or.inr (Or.inr h.1))
    obtain ⟨⟨it, e1⟩, hnp⟩ := g.heap_of (m := m) (by
      rcases l with h | h
      · exact Or.inl h
      · exact Or.inr h.2)
    obtain ⟨hr, hpos⟩ := g.ref m it e1 (by simp)
    refine ⟨s.set m (some { it with ref := it.ref + 1 }), h.put m (h.msg m + 1), ?_, Or.inl ⟨L, ?_, hp⟩, hw⟩
    · intro f
      simp only [Spec.step, msgRef, e1]
      rw [if_neg (by omega)]
      rfl
    · exact g.mod m it { it with ref := it.ref + 1 } (h.msg m + 1) s.outgoing s.waiting e1
        (by simp only; omega) (Nat.succ_pos _)
        (by intro j; split
            · rename_i hj; rw [hj, g.out_flag e1]
            · rfl)
        (by intro j; split
            · rename_i hj; rw [hj, g.wait_flag e1]
            · rfl)
        g.nodupOut g.nodupWait (fun hh => absurd hh hnp)
  | unrefMsg m =>
    obtain ⟨s', e1, i1, l1, _⟩ := msgUnref_ex m hi l
    exact ⟨s', _, fun f => by simp only [Spec.step, e1 f]; rfl, i1, less s' l1⟩
  | call ok m =>
    obtain ⟨L, g, hp⟩ := hi.good (Or.inr (Or.inl ⟨m, l⟩))
    obtain ⟨⟨it, e1⟩, hnp⟩ := g.heap_of (m := m) (Or.inl l)
    obtain ⟨hr, hpos⟩ := g.ref m it e1 (by simp)
    have hnp' : (s.parser == some m) = false := by simpa using hnp
    rw [hnp'] at hr
    by_cases hc : it.out = true ∨ it.wait = true ∨ it.ref = 0 ∨ (wpas = false ∧ it.used = true)
    · refine ⟨s, h, ?_, hi, hw⟩
      intro f
      simp only [Spec.step, call, e1]
      rw [if_neg (by simp [g.alive]), if_pos hc]
      rfl
    · have hof : it.out = false := by
        cases ho : it.out
        · rfl
        · exact absurd (Or.inl ho) hc
      have hwf : it.wait = false := by
        cases ho : it.wait
        · rfl
        · exact absurd (Or.inr (Or.inl ho)) hc
      rw [hof, hwf] at hr
      have hno : m ∉ s.outgoing := by rw [g.out_flag e1, hof]; simp
      have hnw : m ∉ s.waiting := by rw [g.wait_flag e1, hwf]; simp
      have nO : (s.outgoing ++ [m]).Nodup := by
        rw [List.nodup_append]
        refine ⟨g.nodupOut, by simp, ?_⟩
        intro a ha b hb hab
        simp at hb
        rw [hab, hb] at ha
        exact hno ha
      have mO : ∀ j, j ∈ s.outgoing ++ [m] ↔ if j = m then true = true else j ∈ s.outgoing := by
        intro j; split
        · rename_i hj; simp [hj]
        · rename_i hj; simp [hj]
      cases wpas with
      | true =>
        refine ⟨({ s with outgoing := s.outgoing ++ [m] } : St).set m (some { it with used := true, out := true, ref := it.ref + 1 }), h,
          ?_, Or.inl ⟨L, ?_, hp⟩, hw⟩
        · intro f
          simp only [Spec.step, call, e1]
          rw [if_neg (by simp [g.alive]), if_neg hc]
          rfl
        · have := g.mod m it { it with used := true, out := true, ref := it.ref + 1 } (h.msg m) (s.outgoing ++ [m]) s.waiting e1
            (by rw [hnp']; simp only [hwf]; simp only [b2n] at hr ⊢; simp at hr ⊢; omega) (Nat.succ_pos _)
            mO
            (by intro j; split
                · rename_i hj; rw [hj, g.wait_flag e1]
                · rfl)
            nO g.nodupWait (fun hh => absurd hh hnp)
          rw [put_same] at this
          exact this
      | false =>
        cases ok with
        | false =>
          refine ⟨s.set m (some { it with used := true }), h, ?_, Or.inl ⟨L, ?_, hp⟩, hw⟩
          · intro f
            simp only [Spec.step, call, e1]
            rw [if_neg (by simp [g.alive]), if_neg (by simpa using hc)]
            rfl
          · have := g.mod m it { it with used := true } (h.msg m) s.outgoing s.waiting e1
              (by rw [hnp']; simp only [hof, hwf]; exact hr) hpos
              (by intro j; split
                  · rename_i hj; rw [hj, g.out_flag e1]
                  · rfl)
              (by intro j; split
                  · rename_i hj; rw [hj, g.wait_flag e1]
                  · rfl)
              g.nodupOut g.nodupWait (fun hh => absurd hh hnp)
            rw [put_same] at this
            exact this
        | true =>
          refine ⟨({ s with outgoing := s.outgoing ++ [m], waiting := m :: s.waiting } : St).set m
            (some { it with used := true, out := true, wait := true, ref := it.ref + 2 }), h, ?_, Or.inl ⟨L, ?_, hp⟩, by intro hh; cases hh⟩
          · intro f
            simp only [Spec.step, call, e1]
            rw [if_neg (by simp [g.alive]), if_neg (by simpa using hc)]
            rfl
          · have := g.mod m it { it with used := true, out := true, wait := true, ref := it.ref + 2 } (h.msg m) (s.outgoing ++ [m])
              (m :: s.waiting) e1
              (by rw [hnp']; simp only [b2n] at hr ⊢; simp at hr ⊢; omega) (Nat.succ_pos _)
              mO
              (by intro j; split
                  · rename_i hj; simp [hj]
                  · rename_i hj; simp [hj])
              nO (List.nodup_cons.mpr ⟨hnw, g.nodupWait⟩) (fun hh => absurd hh hnp)
            rw [put_same] at this
            exact this
  | drop sending m =>
    obtain ⟨L, g, hp⟩ := hi.good (by
      rcases l with h | h
      · exact Or.inr (Or.inl ⟨m, h⟩)
      · exact Or.inl h.1)
    obtain ⟨⟨it, e1⟩, hnp⟩ := g.heap_of (m := m) (by
      rcases l with h | h
      · exact Or.inl h
      · exact Or.inr (Or.inr h.2))
    by_cases hc : sending = false ∧ it.out = true
    · obtain ⟨s', e2, i2, l2⟩ := unlinkOut_ex m hi g.alive ⟨it, e1⟩
      refine ⟨s', h, ?_, i2, less s' l2⟩
      intro f
      simp only [Spec.step, drop, e1]
      rw [if_pos hc, e2 f]
      rfl
    · obtain ⟨s', e2, i2, l2⟩ := unlinkWait_ex m hi g.alive ⟨it, e1⟩
      refine ⟨s', h, ?_, i2, fun hwp => less s' (l2 (hw hwp).1) hwp⟩
      intro f
      simp only [Spec.step, drop, e1]
      rw [if_neg hc, e2 f]
      rfl
  | written cb m =>
    obtain ⟨L, g, hp⟩ := hi.good (Or.inl l.1)
    obtain ⟨⟨it, e1⟩, hnp⟩ := g.heap_of (m := m) (Or.inr (Or.inl l.2))
    by_cases hc : cb = false ∧ it.wait = true
    · obtain ⟨s', e2, i2, l2⟩ := unlinkWait_ex m hi g.alive ⟨it, e1⟩
      refine ⟨s', h, ?_, i2, fun hwp => less s' (l2 (hw hwp).1) hwp⟩
      intro f
      simp only [Spec.step, written, e1]
      rw [if_pos hc, e2 f]
      rfl
    · obtain ⟨s', e2, i2, l2⟩ := unlinkOut_ex m hi g.alive ⟨it, e1⟩
      refine ⟨s', h, ?_, i2, less s' l2⟩
      intro f
      simp only [Spec.step, written, e1]
      rw [if_neg hc, e2 f]
      rfl
  | parse m =>
    have hwp : wpas = false := a
    obtain ⟨L, g, hp⟩ := hi.good (Or.inl l.1)
    rcases Option.eq_none_or_eq_some s.parser with hpar | ⟨p, hpar⟩
    · refine ⟨{ ({ s with bref := s.bref + 1 } : St).set m (some { ref := 1 }) with parser := some m }, h, ?_,
        Or.inl ⟨m :: L, ?_, Nat.succ_pos _⟩, by rw [hwp]; intro hh; cases hh⟩
      · intro f
        simp only [Spec.step, parse]
        rw [if_neg (by simp [g.alive]), if_neg (by simp [hpar])]
        simp only [newMsg, busRef]
        rw [if_neg (by simp [g.alive]), if_neg (by omega)]
        rfl
      · have := g.born m l.2 (some m) 0 (Or.inr ⟨hpar, rfl, rfl⟩)
        have e0 : h.put m 0 = h := by
          have e1 := put_same h m
          rw [g.gone m l.2] at e1
          exact e1
        rw [e0] at this
        exact this
    · refine ⟨s, h, ?_, hi, hw⟩
      intro f
      simp only [Spec.step, parse]
      rw [if_neg (by simp [g.alive]), if_pos (by simp [hpar])]
      rfl
  | submit =>
    have hwp : wpas = false := a
    obtain ⟨L, g, hp⟩ := hi.good (Or.inl l)
    rcases Option.eq_none_or_eq_some s.parser with hpar | ⟨p, hpar⟩
    · refine ⟨{ s with parser := none }, h, ?_, Or.inl ⟨L, ?_, hp⟩, by rw [hwp]; intro hh; cases hh⟩
      · intro f
        simp only [Spec.step, submit]
        rw [if_neg (by simp [g.alive]), hpar]
        rfl
      · have : ({ s with parser := none } : St) = s := by
          cases s
          simp only at hpar
          rw [hpar]
        rw [this]
        exact g
    · obtain ⟨it, e1, ho, hww, hz⟩ := g.parser p hpar
      refine ⟨{ s with parser := none }, h.put p 1, ?_, Or.inl ⟨L, ?_, hp⟩, by rw [hwp]; intro hh; cases hh⟩
      · intro f
        simp only [Spec.step, submit]
        rw [if_neg (by simp [g.alive]), hpar]
        rfl
      · refine ⟨g.alive, g.nodup, g.mem, g.bref, ?_, g.out, g.wait, g.nodupOut, g.nodupWait, ?_, ?_, ?_⟩
        · intro j it' hj _
          obtain ⟨h1, h2⟩ := g.ref j it' hj (by simp)
          refine ⟨?_, h2⟩
          rw [h1, put_msg]
          by_cases hjp : j = p
          · subst hjp
            rw [if_pos rfl, hpar, hz]
            have e' : s.heap j = some it' := hj
            rw [e1] at e'; cases e'
            simp [ho, hww, b2n]
          · rw [if_neg hjp, hpar]
            have : (some p == some j) = false := by simpa using fun e : p = j => hjp e.symm
            rw [this]
            rfl
        · intro q hq; cases hq
        · intro j hj
          have hj' : s.heap j = none := hj
          have : j ≠ p := fun e => by rw [e, e1] at hj'; cases hj'
          rw [put_msg, if_neg this]
          exact g.gone j hj'
        · intro j hj; cases hj

theorem inv_opened : Inv opened ⟨1, fun _ => 0⟩ := by
  refine Or.inl ⟨[], ⟨rfl, by simp, ?_, rfl, ?_, ?_, ?_, by simp [opened], by simp [opened], ?_, ?_, ?_⟩, by decide⟩
  · intro m; simp [opened]
  · intro m it hm; cases hm
  · intro m; simp [opened]
  · intro m; simp [opened]
  · intro p hp; cases hp
  · intro m _; rfl
  · intro m hm; cases hm

theorem reach_inv {f : Nat} {wpas : Bool} (r : Reach (f + 2) wpas s h) :
    Inv s h ∧ (wpas = true → s.waiting = [] ∧ s.parser = none) := by
  generalize hk : f + 2 = k at r
  induction r with
  | opened => exact ⟨inv_opened, fun _ => ⟨rfl, rfl⟩⟩
  | step op r a l e ih =>
    obtain ⟨i, w⟩ := ih
    obtain ⟨s', h', e1, i1, w1⟩ := step_ex wpas op i w a l
    have := e1 f
    rw [hk, e] at this
    cases this
    exact ⟨i1, w1⟩

end Verif.Refs
