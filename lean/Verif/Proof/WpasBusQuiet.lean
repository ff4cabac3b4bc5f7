import Verif.Proof.WpasBus
/-! # Cancelled calls, dead buses and progress -/
namespace Verif.WpasBus
open Verif.C

theorem dropped_mono (e : Ev) (s : Spec.St) (id : Nat) (h : id ∈ s.dropped) : id ∈ (s.next e).dropped := by
  cases e with
  | cancelled c => exact List.mem_append_left _ h
  | wrote i =>
    unfold Spec.St.next
    dsimp only
    split <;> exact h
  | got p =>
    unfold Spec.St.next
    dsimp only
    split <;> exact h
  | _ => exact h

theorem dropped_silent (tr : List Ev) : ∀ (s : Spec.St) (id : Nat), id ∈ s.dropped →
    ∀ a ∈ (tr.foldl Spec.St.next s).answers, a ∈ s.answers ∨ a.1 ≠ id := by
  induction tr with
  | nil => intro s id _ a ha; exact Or.inl ha
  | cons e t ih =>
    intro s id h a ha
    rcases ih (s.next e) id (dropped_mono e s id h) a ha with h' | h'
    · cases e with
      | got p =>
        unfold Spec.St.next at h'
        dsimp only at h'
        split at h'
        · exact Or.inl h'
        · rename_i f rest _
          simp only at h'
          split at h'
          · rename_i hw
            rcases List.mem_append.mp h' with h' | h'
            · exact Or.inl h'
            · simp only [List.mem_singleton] at h'
              subst h'
              refine Or.inr fun e => ?_
              unfold Spec.wanted at hw
              simp only at e
              rw [e] at hw
              simp [h] at hw
          · exact Or.inl h'
      | wrote i =>
        unfold Spec.St.next at h'
        dsimp only at h'
        split at h' <;> exact Or.inl h'
      | _ => exact Or.inl h'
    · exact Or.inr h'

/-- What a dead bus shows: calls, submissions and cancellations. -/
def Muted (tr : List Ev) : Prop := ∀ e ∈ tr, (∃ i c b, e = .called i c b) ∨ (∃ i, e = .submitted i) ∨ ∃ c, e = .cancelled c

theorem dead_step (w : Bus) (o : Op) (hd : w.dead = true) (ha : w.attached = false) :
    (step w o).1.dead = true ∧ (step w o).1.attached = false ∧ Muted (step w o).2 := by
  have hnil : Muted [] := by intro e he; simp at he
  cases o with
  | newMsg r => exact ⟨hd, ha, hnil⟩
  | setPeer id p =>
    refine ⟨?_, ?_, hnil⟩ <;>
    · show _ = _
      simp only [step, setPeer]
      split
      · assumption
      · split <;> assumption
  | sealMsg id =>
    refine ⟨?_, ?_, hnil⟩ <;>
    · show _ = _
      simp only [step, sealUser]
      split <;> assumption
  | call id cb so =>
    simp only [step, callAsync]
    split
    · exact ⟨hd, ha, hnil⟩
    · split
      · exact ⟨hd, ha, hnil⟩
      · split
        · exact ⟨hd, ha, hnil⟩
        · split
          · exact ⟨hd, ha, hnil⟩
          · refine ⟨hd, ha, ?_⟩
            intro e he
            simp only [List.mem_singleton] at he
            exact Or.inl ⟨_, _, _, he⟩
  | cancel c =>
    have hc : Muted [.cancelled c] := by
      intro e he
      simp only [List.mem_singleton] at he
      exact Or.inr (Or.inr ⟨_, he⟩)
    simp only [step, cancel]
    split
    · exact ⟨hd, ha, hnil⟩
    · split
      · exact ⟨hd, ha, hc⟩
      · split
        · exact ⟨hd, ha, hc⟩
        · exact ⟨hd, ha, hc⟩
  | send id so =>
    simp only [step, send]
    split
    · exact ⟨hd, ha, hnil⟩
    · split
      · exact ⟨hd, ha, hnil⟩
      · split
        · exact ⟨hd, ha, hnil⟩
        · split
          · exact ⟨hd, ha, hnil⟩
          · refine ⟨hd, ha, ?_⟩
            intro e he
            simp only [List.mem_singleton] at he
            exact Or.inr (Or.inl ⟨_, he⟩)
  | io i u h s r => simp only [step, io, if_pos ha]; exact ⟨hd, ha, hnil⟩
  | timer => simp only [step, timer, if_pos ha]; exact ⟨hd, ha, hnil⟩
  | attach => simp only [step, attach, if_pos hd]; exact ⟨hd, ha, hnil⟩
  | detach => exact ⟨hd, rfl, hnil⟩

theorem dead_run (ops : List Op) : ∀ w : Bus, w.dead = true → w.attached = false → Muted (run w ops).2 := by
  induction ops with
  | nil => intro w _ _ e he; simp [run] at he
  | cons o t ih =>
    intro w hd ha
    obtain ⟨h1, h2, h3⟩ := dead_step w o hd ha
    intro e he
    simp only [run] at he
    rcases List.mem_append.mp he with he | he
    · exact h3 e he
    · exact ih _ h1 h2 e he

theorem ops_nohup (w : Bus) (r : ReadRes) : Ev.hup ∉ (read w r).2.2 := by
  unfold read
  cases r with
  | again => simp
  | err => simp
  | msg b p =>
    cases b with
    | false => simp
    | true =>
      simp only
      split
      · simp
      · split
        · simp
        · split
          · simp
          · split
            · simp
            · split <;> simp

theorem write_nohup (w : Bus) (r : SendRes) : Ev.hup ∉ (write w r).2.2 := by
  unfold write
  split
  · simp
  · split
    · simp
    · split
      · simp
      · split
        · simp
        · dsimp only
          split <;> simp

theorem hangup_dead (w : Bus) (h : Ev.hup ∈ (hangup w).2) : (hangup w).1.dead = true ∧ (hangup w).1.attached = false := by
  unfold hangup at h ⊢
  split
  · rename_i hd; rw [if_pos hd] at h; simp at h
  · exact ⟨rfl, rfl⟩

/-- A step that reports the hang-up leaves the bus dead, and reports it last. -/
theorem hup_step (w : Bus) (o : Op) (h : Ev.hup ∈ (step w o).2) :
    (step w o).1.dead = true ∧ (step w o).1.attached = false ∧ ∃ a, (step w o).2 = a ++ [.hup] ∧ Ev.hup ∉ a := by
  have hhang : ∀ (w : Bus) (a : List Ev), Ev.hup ∉ a → Ev.hup ∈ a ++ (hangup w).2 →
      (hangup w).1.dead = true ∧ (hangup w).1.attached = false ∧
        ∃ a', a ++ (hangup w).2 = a' ++ [.hup] ∧ Ev.hup ∉ a' := by
    intro w a ha hm
    rcases List.mem_append.mp hm with hm | hm
    · exact absurd hm ha
    · refine ⟨(hangup_dead w hm).1, (hangup_dead w hm).2, a, ?_, ha⟩
      unfold hangup at hm ⊢
      split
      · rename_i hd; rw [if_pos hd] at hm; simp at hm
      · rfl
  have hend : ∀ (w : Bus) (hu : Bool) (wr : SendRes) (a : List Ev), Ev.hup ∉ a → Ev.hup ∈ a ++ (ioEnd w hu wr).2 →
      (ioEnd w hu wr).1.dead = true ∧ (ioEnd w hu wr).1.attached = false ∧
        ∃ a', a ++ (ioEnd w hu wr).2 = a' ++ [.hup] ∧ Ev.hup ∉ a' := by
    intro w hu wr a ha hm
    unfold ioEnd at hm ⊢
    split
    · rename_i hc; rw [if_pos hc] at hm; exact hhang w a ha hm
    · rename_i hc; rw [if_neg hc] at hm; simp [ha] at hm
  have hread : ∀ (w : Bus) (inp hu : Bool) (wr : SendRes) (r : ReadRes) (a : List Ev), Ev.hup ∉ a →
      Ev.hup ∈ a ++ (ioRead w inp hu wr r).2 →
      (ioRead w inp hu wr r).1.dead = true ∧ (ioRead w inp hu wr r).1.attached = false ∧
        ∃ a', a ++ (ioRead w inp hu wr r).2 = a' ++ [.hup] ∧ Ev.hup ∉ a' := by
    intro w inp hu wr r a ha hm
    unfold ioRead at hm ⊢
    split
    · rename_i hc
      rw [if_pos hc] at hm
      have hno := ops_nohup w r
      cases r with
      | err =>
        simp only at hm ⊢
        rw [← List.append_assoc] at hm ⊢
        exact hhang _ _ (by simp [ha, hno]) hm
      | msg b p =>
        simp only at hm
        rcases List.mem_append.mp hm with hm | hm
        · exact absurd hm ha
        · exact absurd hm hno
      | again =>
        simp only at hm ⊢
        rw [← List.append_assoc] at hm ⊢
        exact hend _ _ _ _ (by simp [ha, hno]) hm
    · rename_i hc
      rw [if_neg hc] at hm
      exact hend _ _ _ _ ha hm
  cases o with
  | newMsg r => simp [step] at h
  | setPeer id p => simp [step] at h
  | sealMsg id => simp [step] at h
  | call id cb so =>
    exfalso
    simp only [step, callAsync] at h
    split at h
    · simp at h
    · split at h
      · simp at h
      · split at h
        · simp at h
        · split at h <;> simp at h
  | cancel c =>
    exfalso
    simp only [step, cancel] at h
    split at h
    · simp at h
    · split at h
      · simp at h
      · split at h <;> simp at h
  | send id so =>
    exfalso
    simp only [step, send] at h
    split at h
    · simp at h
    · split at h
      · simp at h
      · split at h
        · simp at h
        · split at h <;> simp at h
  | io i u hu s r =>
    unfold step at h ⊢
    dsimp only at h ⊢
    unfold io at h ⊢
    split
    · rename_i ha; rw [if_pos ha] at h; simp at h
    · rename_i ha
      rw [if_neg ha] at h
      dsimp only at h ⊢
      refine hread _ _ _ _ _ _ ?_ h
      split
      · exact write_nohup w s
      · simp
  | timer =>
    unfold step at h ⊢
    dsimp only at h ⊢
    unfold timer at h ⊢
    split
    · rename_i ha; rw [if_pos ha] at h; simp at h
    · rename_i ha
      rw [if_neg ha] at h
      split
      · rename_i hq; rw [if_pos hq] at h; simp at h
      · rename_i hq
        rw [if_neg hq] at h
        exact hhang w [] (by simp) h
  | attach => simp [step] at h
  | detach => simp [step] at h

theorem hup_run (ops : List Op) : ∀ (w : Bus) (a b : List Ev), (run w ops).2 = a ++ Ev.hup :: b → Muted b := by
  induction ops with
  | nil => intro w a b h; simp [run] at h
  | cons o t ih =>
    intro w a b h
    simp only [run] at h
    by_cases hs : Ev.hup ∈ (step w o).2
    · obtain ⟨h1, h2, c, hc, hnc⟩ := hup_step w o hs
      rw [hc, List.append_assoc, List.singleton_append] at h
      rcases List.append_eq_append_iff.mp h with ⟨d, hd, h'⟩ | ⟨d, hd, h'⟩
      · cases d with
        | nil =>
          simp only [List.nil_append, List.cons.injEq, true_and] at h'
          rw [← h']; exact dead_run t _ h1 h2
        | cons x d =>
          simp only [List.cons_append, List.cons.injEq] at h'
          have hb := dead_run t _ h1 h2
          rw [h'.2] at hb
          exact fun e he => hb e (by simp [he])
      · cases d with
        | nil =>
          simp only [List.nil_append, List.cons.injEq, true_and] at h'
          rw [h']; exact dead_run t _ h1 h2
        | cons x d =>
          simp only [List.cons_append, List.cons.injEq] at h'
          exfalso
          apply hnc
          rw [hd, ← h'.1]; simp
    · rcases List.append_eq_append_iff.mp h with ⟨d, hd, h'⟩ | ⟨d, hd, h'⟩
      · exact ih _ d b h'
      · cases d with
        | nil =>
          exact ih _ [] b (by rw [List.nil_append] at h' ⊢; exact h'.symm)
        | cons x d =>
          simp only [List.cons_append, List.cons.injEq] at h'
          exfalso
          apply hs
          rw [hd, ← h'.1]; simp

end Verif.WpasBus
