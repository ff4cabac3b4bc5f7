import Verif.Model.RtspMatch
import Verif.Proof.WpasMatch
/-! # Lemmas about match callbacks of the RTSP bus -/
namespace Verif.RtspMatch
open Verif.WpasMatch (Reg MOp change Match Spec.keys Spec.added Spec.allOps Spec.gone Spec.survivors foldl_calling keys_foldl added_append Idle idle_change)
open Verif.WpasMatch

theorem loop_calls (b : List (List MOp × Int)) : ∀ (r r' : Reg) (i : Nat) (last rv : Int) (c : List Nat), r.calling = true →
    i ≤ r.list.length → RtspMatch.loop r i last b = some (r', c, rv) → c.length ≤ b.length ∧
      Spec.keys r' = Spec.keys r ++ Spec.added (Spec.allOps (b.take c.length)) ∧
      c = ((Spec.keys r').drop i).take c.length ∧
      (∀ j, j + 1 < c.length → (b[j]?).map (·.2) = some 0) ∧
      r' = (Spec.allOps (b.take c.length)).foldl change r ∧
      (c = [] → rv = last) ∧ (c ≠ [] → (b[c.length - 1]?).map (·.2) = some rv) ∧
      (rv ≠ 0 ∧ c ≠ [] ∨ i + c.length = (Spec.keys r').length) := by
  induction b with
  | nil =>
    intro r r' i last rv c hc hi h
    unfold RtspMatch.loop at h
    split at h
    · cases h
    · rename_i hlt
      cases h
      refine ⟨by simp, by simp [Spec.allOps, Spec.added], by simp, by simp, by simp [Spec.allOps], fun _ => rfl, fun h => absurd rfl h, Or.inr ?_⟩
      simp [Spec.keys]
      omega
  | cons x t ih =>
    obtain ⟨ops, ret⟩ := x
    intro r r' i last rv c hc hi h
    unfold RtspMatch.loop at h
    split at h
    · rename_i hn
      cases h
      have hge : r.list.length ≤ i := by simpa using hn
      refine ⟨by simp, by simp [Spec.allOps, Spec.added], by simp, by simp, by simp [Spec.allOps], fun _ => rfl, fun h => absurd rfl h, Or.inr ?_⟩
      simp [Spec.keys]
      omega
    · rename_i m hm
      have hlt : i < r.list.length := by
        rcases Nat.lt_or_ge i r.list.length with h' | h'
        · exact h'
        · rw [List.getElem?_eq_none h'] at hm; simp at hm
      have hki : (Spec.keys r)[i]? = some m.key := by unfold Spec.keys; rw [List.getElem?_map, hm]; rfl
      have hk' := keys_foldl ops r hc
      have hdrop : ∀ r1 : Reg, ∀ e, Spec.keys r1 = Spec.keys r ++ e → (Spec.keys r1).drop i = m.key :: (Spec.keys r1).drop (i + 1) := by
        intro r1 e he
        have hl : i < (Spec.keys r1).length := by rw [he]; simp [Spec.keys]; omega
        rw [List.drop_eq_getElem_cons hl]
        have : (Spec.keys r1)[i]? = some m.key := by
          rw [he, List.getElem?_append_left (by unfold Spec.keys; simpa using hlt)]; exact hki
        rw [List.getElem?_eq_getElem hl] at this
        simp at this
        rw [this]
      dsimp only at h
      split at h
      · rename_i hr
        cases h
        refine ⟨by simp, by simp [hk', Spec.allOps], ?_, by simp, by simp [Spec.allOps], (fun h => by cases h), fun _ => by simp, Or.inl ⟨hr, by simp⟩⟩
        rw [hdrop _ _ hk']; rfl
      · rename_i hr
        have hr0 : ret = 0 := Classical.not_not.mp hr
        simp only [Option.map_eq_some_iff] at h
        obtain ⟨⟨r1, c1, v1⟩, h1, h2⟩ := h
        simp only [Prod.mk.injEq] at h2
        obtain ⟨rfl, rfl, rfl⟩ := h2
        have hlen : (ops.foldl change r).list.length = r.list.length + (Spec.added ops).length := by
          have := congrArg List.length hk'
          simpa [Spec.keys] using this
        obtain ⟨a1, a2, a3, a4, a5, a6, a7, a8⟩ := ih _ r1 (i + 1) ret v1 c1 (by rw [foldl_calling]; exact hc) (by omega) h1
        have hkr1 : Spec.keys r1 = Spec.keys r ++ Spec.added (Spec.allOps (((ops, ret) :: t).take (c1.length + 1))) := by
          rw [a2, hk', List.append_assoc, ← added_append]
          simp [Spec.allOps]
        refine ⟨by simp; omega, by simpa using hkr1, ?_, ?_, ?_, (fun h => by cases h), ?_, ?_⟩
        · rw [hdrop _ _ hkr1, List.length_cons, List.take_succ_cons, ← a3]
        · intro j hj
          cases j with
          | zero =>
            simp only [List.getElem?_cons_zero, Option.map_some, Option.some.injEq]
            exact hr0
          | succ j =>
            rw [List.getElem?_cons_succ]
            exact a4 j (by simp at hj; omega)
        · rw [a5]
          simp [Spec.allOps]
        · intro _
          by_cases hc1 : c1 = []
          · rw [hc1, a6 hc1]; simp
          · have : 0 < c1.length := List.length_pos_iff.mpr hc1
            rw [List.length_cons, Nat.add_sub_cancel, show c1.length = (c1.length - 1) + 1 by omega, List.getElem?_cons_succ]
            exact a7 hc1
        · rcases a8 with ⟨h8, _⟩ | h8
          · exact Or.inl ⟨h8, by simp⟩
          · refine Or.inr ?_
            rw [List.length_cons]; omega

theorem idle_call {r r' : Reg} {b : List (List MOp × Int)} {c : List Nat × Int} (h : RtspMatch.call r b = some (r', c)) : Idle r' := by
  unfold RtspMatch.call at h
  simp only [Option.map_eq_some_iff, Prod.mk.injEq] at h
  obtain ⟨x, -, rfl, -⟩ := h
  refine ⟨rfl, ?_⟩
  intro m hm
  have := (List.mem_filter.mp hm).2
  simpa using this

theorem idle_run (ops : List RtspMatch.Op) : ∀ {r r' : Reg}, Idle r → RtspMatch.run r ops = some r' → Idle r' := by
  induction ops with
  | nil => intro r r' h hr; cases hr; exact h
  | cons o t ih =>
    intro r r' h hr
    cases o with
    | change o => exact ih (idle_change h o) hr
    | dispatch b =>
      unfold RtspMatch.run at hr
      rw [Option.bind_eq_some_iff] at hr
      obtain ⟨⟨x1, x2⟩, hx, hr⟩ := hr
      exact ih (idle_call hx) hr

end Verif.RtspMatch
