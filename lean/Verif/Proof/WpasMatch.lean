import Verif.Spec.WpasMatch
/-! # Lemmas about match callbacks -/
namespace Verif.WpasMatch
open Verif.C

theorem keys_markLast (k : Nat) (l : List Match) : (markLast k l).map (·.key) = l.map (·.key) := by
  induction l with
  | nil => rfl
  | cons m t ih =>
    unfold markLast
    split
    · simp [ih]
    · split <;> rfl

theorem change_calling (r : Reg) (o : MOp) : (change r o).calling = r.calling := by cases o <;> rfl

theorem foldl_calling (ops : List MOp) : ∀ r : Reg, (ops.foldl change r).calling = r.calling := by
  induction ops with
  | nil => intro r; rfl
  | cons o t ih => intro r; rw [List.foldl_cons, ih, change_calling]

theorem keys_foldl (ops : List MOp) : ∀ r : Reg, r.calling = true →
    Spec.keys (ops.foldl change r) = Spec.keys r ++ Spec.added ops := by
  induction ops with
  | nil => intro r _; simp [Spec.added]
  | cons o t ih =>
    intro r h
    rw [List.foldl_cons, ih _ (by rw [change_calling]; exact h)]
    cases o with
    | add k => simp [change, add, Spec.keys, Spec.added]
    | remove k =>
      have : Spec.keys (change r (.remove k)) = Spec.keys r := by
        simp only [change, remove, Spec.keys, h, if_true, keys_markLast]
      rw [this]
      simp [Spec.added]

theorem added_append (a b : List MOp) : Spec.added (a ++ b) = Spec.added a ++ Spec.added b := by
  simp [Spec.added, List.filterMap_append]

/-- The calls of a dispatch. -/
theorem loop_calls (b : List (List MOp × Int)) : ∀ (r r' : Reg) (i : Nat) (c : List Nat), r.calling = true →
    i ≤ r.list.length → loop r i b = some (r', c) → c.length ≤ b.length ∧
      Spec.keys r' = Spec.keys r ++ Spec.added (Spec.allOps (b.take c.length)) ∧
      c = ((Spec.keys r').drop i).take c.length ∧
      (∀ j, j + 1 < c.length → (b[j]?).map (·.2) = some 0) ∧
      r' = (Spec.allOps (b.take c.length)).foldl change r ∧
      ((c ≠ [] ∧ ∃ o ret, b[c.length - 1]? = some (o, ret) ∧ ret ≠ 0) ∨
        i + c.length = r.list.length + (Spec.added (Spec.allOps (b.take (c.length - 1)))).length) := by
  induction b with
  | nil =>
    intro r r' i c hc hi h
    unfold loop at h
    split at h
    · simp at h
    · rename_i hlt
      cases h
      refine ⟨by simp, by simp [Spec.allOps, Spec.added], by simp, by simp, by simp [Spec.allOps], Or.inr ?_⟩
      simp [Spec.allOps, Spec.added]
      omega
  | cons x t ih =>
    obtain ⟨ops, ret⟩ := x
    intro r r' i c hc hi h
    unfold loop at h
    split at h
    · rename_i hn
      cases h
      have hge : r.list.length ≤ i := by simpa using hn
      refine ⟨by simp, by simp [Spec.allOps, Spec.added], by simp, by simp, by simp [Spec.allOps], Or.inr ?_⟩
      simp [Spec.allOps, Spec.added]
      omega
    · rename_i m hm
      have hlt : i < r.list.length := by
        rcases Nat.lt_or_ge i r.list.length with h' | h'
        · exact h'
        · rw [List.getElem?_eq_none h'] at hm; simp at hm
      have hki : (Spec.keys r)[i]? = some m.key := by unfold Spec.keys; rw [List.getElem?_map, hm]; rfl
      have hk' := keys_foldl ops r hc
      have hone : ∀ r1, r1 = ops.foldl change r → [m.key] = ((Spec.keys r1).drop i).take 1 := by
        intro r1 e
        rw [e, hk', List.drop_append_of_le_length (by unfold Spec.keys; simp; omega)]
        have : (Spec.keys r).drop i = m.key :: (Spec.keys r).drop (i + 1) := by
          have hl : i < (Spec.keys r).length := by unfold Spec.keys; simpa using hlt
          rw [List.drop_eq_getElem_cons hl]
          rw [List.getElem?_eq_getElem hl] at hki
          simp at hki
          rw [hki]
        rw [this]; rfl
      dsimp only at h
      split at h
      · rename_i hr
        cases h
        refine ⟨by simp, by simp [hk', Spec.allOps], hone _ rfl, by simp, by simp [Spec.allOps], Or.inl ⟨by simp, ops, ret, by simp, hr⟩⟩
      · rename_i hr
        split at h
        · rename_i hl
          cases h
          refine ⟨by simp, by simp [hk', Spec.allOps], hone _ rfl, by simp, by simp [Spec.allOps], Or.inr ?_⟩
          simp only [decide_eq_true_eq] at hl
          simp [Spec.allOps, Spec.added, hl]
        · rename_i hl
          simp only [decide_eq_true_eq] at hl
          simp only [Option.map_eq_some_iff] at h
          obtain ⟨⟨r1, c1⟩, h1, h2⟩ := h
          simp only [Prod.mk.injEq] at h2
          obtain ⟨rfl, rfl⟩ := h2
          have hlen : (ops.foldl change r).list.length = r.list.length + (Spec.added ops).length := by
            have := congrArg List.length hk'
            simpa [Spec.keys] using this
          obtain ⟨a1, a2, a3, a4, a5, a6⟩ := ih _ r1 (i + 1) c1 (by rw [foldl_calling]; exact hc) (by omega) h1
          have hkr1 : Spec.keys r1 = Spec.keys r ++ Spec.added (Spec.allOps (((ops, ret) :: t).take (c1.length + 1))) := by
            rw [a2, hk', List.append_assoc, ← added_append]
            simp [Spec.allOps]
          refine ⟨by simp; omega, by simpa using hkr1, ?_, ?_, ?_, ?_⟩
          · have hd : (Spec.keys r1).drop i = m.key :: (Spec.keys r1).drop (i + 1) := by
              have hl' : i < (Spec.keys r1).length := by
                rw [hkr1]; simp [Spec.keys]; omega
              rw [List.drop_eq_getElem_cons hl']
              have : (Spec.keys r1)[i]? = some m.key := by
                rw [hkr1, List.getElem?_append_left (by unfold Spec.keys; simpa using hlt)]; exact hki
              rw [List.getElem?_eq_getElem hl'] at this
              simp at this
              rw [this]
            rw [hd, List.length_cons, List.take_succ_cons, ← a3]
          · intro j hj
            cases j with
            | zero =>
              simp only [List.getElem?_cons_zero, Option.map_some, Option.some.injEq]
              exact Classical.not_not.mp hr
            | succ j =>
              rw [List.getElem?_cons_succ]
              exact a4 j (by simp at hj; omega)
          · rw [a5]
            simp [Spec.allOps]
          · rcases a6 with ⟨hne, o, rt, hb, hrt⟩ | a6
            · refine Or.inl ⟨by simp, o, rt, ?_, hrt⟩
              have : 0 < c1.length := List.length_pos_iff.mpr hne
              rw [List.length_cons, Nat.add_sub_cancel, show c1.length = (c1.length - 1) + 1 by omega,
                List.getElem?_cons_succ]
              exact hb
            · refine Or.inr ?_
              rw [List.length_cons, Nat.add_sub_cancel]
              cases hc1 : c1 with
              | nil =>
                exfalso
                subst hc1
                simp [Spec.allOps, Spec.added] at a6
                omega
              | cons y ys =>
                rw [hc1] at a6
                simp only [List.length_cons, Nat.add_sub_cancel] at a6 ⊢
                rw [List.take_succ_cons]
                have : Spec.allOps ((ops, ret) :: t.take ys.length) = ops ++ Spec.allOps (t.take ys.length) := by
                  simp [Spec.allOps]
                rw [this, added_append, List.length_append]
                omega

/-- Exactly the last of each removed key is marked. -/
def Marked (g : List Nat) : List Match → Prop
  | [] => True
  | m :: t => (m.removed = true ↔ m.key ∈ g ∧ m.key ∉ t.map (·.key)) ∧ Marked g t

theorem Marked.nil_of {l : List Match} (h : ∀ m ∈ l, m.removed = false) : Marked [] l := by
  induction l with
  | nil => trivial
  | cons m t ih => exact ⟨by simp [h m (by simp)], ih (fun x hx => h x (by simp [hx]))⟩

theorem Marked.other {g : List Nat} {k : Nat} {l : List Match} (h : Marked g l) (hk : k ∉ l.map (·.key)) : Marked (k :: g) l := by
  induction l with
  | nil => trivial
  | cons m t ih =>
    simp only [List.map_cons, List.mem_cons, not_or] at hk
    refine ⟨?_, ih h.2 hk.2⟩
    rw [h.1]
    simp [Ne.symm hk.1]

theorem Marked.mark {g : List Nat} (k : Nat) {l : List Match} (h : Marked g l) : Marked (k :: g) (markLast k l) := by
  induction l with
  | nil => trivial
  | cons m t ih =>
    unfold markLast
    split
    · rename_i ha
      refine ⟨?_, ih h.2⟩
      rw [keys_markLast, h.1]
      have hmem : k ∈ t.map (·.key) := by
        rw [List.any_eq_true] at ha
        obtain ⟨x, hx, e⟩ := ha
        simp only [decide_eq_true_eq] at e
        exact List.mem_map.mpr ⟨x, hx, e⟩
      constructor
      · rintro ⟨h1, h2⟩; exact ⟨by simp [h1], h2⟩
      · rintro ⟨h1, h2⟩
        refine ⟨?_, h2⟩
        rcases List.mem_cons.mp h1 with e | h1
        · exact absurd (e ▸ hmem) h2
        · exact h1
    · rename_i ha
      have hnm : k ∉ t.map (·.key) := by
        intro hm
        obtain ⟨x, hx, e⟩ := List.mem_map.mp hm
        exact ha (List.any_eq_true.mpr ⟨x, hx, by simp [e]⟩)
      split
      · rename_i hk
        refine ⟨?_, h.2.other hnm⟩
        simp only [hk, List.mem_cons, true_or, true_and, true_iff]
        exact hnm
      · rename_i hk
        refine ⟨?_, h.2.other hnm⟩
        rw [h.1]
        simp [hk]

theorem Marked.foldl (ops : List MOp) (hn : Spec.added ops = []) : ∀ {g : List Nat} {r : Reg}, r.calling = true → Marked g r.list →
    Marked ((Spec.gone ops).reverse ++ g) (ops.foldl change r).list := by
  induction ops with
  | nil => intro g r _ h; simpa [Spec.gone] using h
  | cons o t ih =>
    intro g r hc h
    cases o with
    | add k => simp [Spec.added] at hn
    | remove k =>
      have hn' : Spec.added t = [] := by simpa [Spec.added] using hn
      have h1 : Marked (k :: g) (change r (.remove k)).list := by
        simp only [change, remove, hc, if_true]
        exact h.mark k
      have := ih hn' (by rw [change_calling]; exact hc) h1
      simpa [Spec.gone] using this

theorem Marked.filter {g : List Nat} {l : List Match} (h : Marked g l) :
    (l.filter (fun m => !m.removed)).map (·.key) = Spec.survivors g (l.map (·.key)) := by
  induction l with
  | nil => rfl
  | cons m t ih =>
    rw [List.map_cons, Spec.survivors]
    cases hm : m.removed with
    | true =>
      rw [List.filter_cons_of_neg (by simp [hm]), if_pos (h.1.mp hm), ih h.2]
    | false =>
      rw [List.filter_cons_of_pos (by simp [hm]), if_neg (fun hh => by rw [h.1.mpr hh] at hm; simp at hm),
        List.map_cons, ih h.2]

theorem survivors_congr {g g' : List Nat} (h : ∀ k, k ∈ g ↔ k ∈ g') (l : List Nat) : Spec.survivors g l = Spec.survivors g' l := by
  induction l with
  | nil => rfl
  | cons k t ih => unfold Spec.survivors; rw [ih]; simp only [h k]

theorem eraseLast_sub (k : Nat) (l : List Match) : ∀ m ∈ eraseLast k l, m ∈ l := by
  induction l with
  | nil => intro m hm; exact hm
  | cons x t ih =>
    intro m hm
    unfold eraseLast at hm
    split at hm
    · rcases List.mem_cons.mp hm with rfl | hm
      · simp
      · exact List.mem_cons_of_mem _ (ih m hm)
    · split at hm
      · exact List.mem_cons_of_mem _ hm
      · exact hm

theorem keys_eraseLast (k : Nat) (l : List Match) : (eraseLast k l).map (·.key) = Spec.survivors [k] (l.map (·.key)) := by
  have same : ∀ t : List Nat, k ∉ t → Spec.survivors [k] t = t := by
    intro t ht
    induction t with
    | nil => rfl
    | cons a t ih =>
      unfold Spec.survivors
      simp only [List.mem_cons, not_or] at ht
      rw [if_neg (by simp [Ne.symm ht.1]), ih ht.2]
  induction l with
  | nil => rfl
  | cons m t ih =>
    unfold eraseLast
    rw [List.map_cons]
    unfold Spec.survivors
    split
    · rename_i ha
      have hmem : k ∈ t.map (·.key) := by
        rw [List.any_eq_true] at ha
        obtain ⟨x, hx, e⟩ := ha
        simp only [decide_eq_true_eq] at e
        exact List.mem_map.mpr ⟨x, hx, e⟩
      rw [if_neg (by
        rintro ⟨h1, h2⟩
        simp only [List.mem_singleton] at h1
        exact h2 (h1 ▸ hmem)), List.map_cons, ih]
    · rename_i ha
      have hnm : k ∉ t.map (·.key) := by
        intro hm
        obtain ⟨x, hx, e⟩ := List.mem_map.mp hm
        exact ha (List.any_eq_true.mpr ⟨x, hx, by simp [e]⟩)
      split
      · rename_i hk
        rw [if_pos (by rw [hk]; exact ⟨by simp, hnm⟩), same _ hnm]
      · rename_i hk
        rw [if_neg (by simp [hk]), same _ hnm]; rfl

/-- Between dispatches. -/
def Idle (r : Reg) : Prop := r.calling = false ∧ ∀ m ∈ r.list, m.removed = false

theorem idle_change {r : Reg} (h : Idle r) (o : MOp) : Idle (change r o) := by
  refine ⟨by rw [change_calling]; exact h.1, ?_⟩
  cases o with
  | add k =>
    intro m hm
    rcases List.mem_append.mp hm with hm | hm
    · exact h.2 m hm
    · simp only [List.mem_singleton] at hm
      rw [hm]
  | remove k =>
    intro m hm
    simp only [change, remove, h.1, Bool.false_eq_true, if_false] at hm
    exact h.2 m (eraseLast_sub k r.list m hm)

theorem idle_call {r r' : Reg} {b : List (List MOp × Int)} {c : List Nat} (h : call r b = some (r', c)) : Idle r' := by
  unfold call at h
  simp only [Option.map_eq_some_iff, Prod.mk.injEq] at h
  obtain ⟨x, -, rfl, -⟩ := h
  refine ⟨rfl, ?_⟩
  intro m hm
  have := (List.mem_filter.mp hm).2
  simpa using this

theorem idle_run (ops : List Op) : ∀ {r r' : Reg}, Idle r → run r ops = some r' → Idle r' := by
  induction ops with
  | nil => intro r r' h hr; cases hr; exact h
  | cons o t ih =>
    intro r r' h hr
    cases o with
    | change o => exact ih (idle_change h o) hr
    | dispatch b =>
      unfold run at hr
      rw [Option.bind_eq_some_iff] at hr
      obtain ⟨x, hx, hr⟩ := hr
      obtain ⟨x1, x2⟩ := x
      exact ih (idle_call hx) hr

end Verif.WpasMatch
