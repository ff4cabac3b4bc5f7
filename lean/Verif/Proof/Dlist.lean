import Verif.Spec.Dlist
import Mathlib.Tactic.Tauto
/-! Helper lemmas for the linked list. -/
namespace Verif.Dlist
open Verif.C

theorem snocCases (l : List Nat) : l = [] ∨ ∃ M z, l = M ++ [z] := by
  induction l using snocInd with
  | nil => exact .inl rfl
  | snoc l a _ => exact .inr ⟨l, a, rfl⟩

theorem gl_snoc (a z : Nat) (M : List Nat) : (a :: (M ++ [z])).getLast (by simp) = z := by
  rw [List.getLast_cons (by simp)]; simp

/-- doubly linked segment from `a` over `L` to `b` -/
def Seg (h : Heap) : Nat → List Nat → Nat → Prop
  | a, [], b => (h a).next = b ∧ (h b).prev = a
  | a, x :: L, b => (h a).next = x ∧ (h x).prev = a ∧ Seg h x L b

theorem seg_append {h : Heap} {x : Nat} {L2 : List Nat} {b : Nat} : ∀ {L1 : List Nat} {a : Nat},
    Seg h a (L1 ++ x :: L2) b ↔ Seg h a L1 x ∧ Seg h x L2 b := by
  intro L1
  induction L1 with
  | nil => intro a; simp [Seg, and_assoc]
  | cons y L1 ih => intro a; simp [Seg, ih, and_assoc]

theorem seg_frame {h h' : Heap} {b : Nat} : ∀ {L : List Nat} {a : Nat}, Seg h a L b →
    (∀ x ∈ a :: L, (h' x).next = (h x).next) → (∀ x ∈ L ++ [b], (h' x).prev = (h x).prev) →
    Seg h' a L b := by
  intro L
  induction L with
  | nil =>
    intro a hs hn hp
    exact ⟨(hn a (by simp)).trans hs.1, (hp b (by simp)).trans hs.2⟩
  | cons x L ih =>
    intro a hs hn hp
    refine ⟨(hn a (by simp)).trans hs.1, (hp x (by simp)).trans hs.2.1, ih hs.2.2 ?_ ?_⟩
    · intro y hy; exact hn y (by simp at hy ⊢; tauto)
    · intro y hy; exact hp y (by simp at hy ⊢; tauto)

theorem seg_next_mem {h : Heap} {a b : Nat} : ∀ {L : List Nat}, Seg h a L b → (h a).next ∈ L ++ [b] := by
  intro L hs
  cases L with
  | nil => simp [hs.1]
  | cons x L => simp [hs.1]

/-- simulation relation -/
structure Sim (heads : List Nat) (h : Heap) (s : Spec.Lists) : Prop where
  seg : ∀ a ∈ heads, Seg h a (s a) a
  nz : 0 ∉ heads
  nodup : ∀ a ∈ heads, (s a).Nodup
  nothead : ∀ a ∈ heads, ∀ x ∈ s a, x ∉ heads ∧ x ≠ 0
  disj : ∀ a ∈ heads, ∀ b ∈ heads, a ≠ b → ∀ x ∈ s a, x ∉ s b
  unl : ∀ x, x ∉ heads → ¬ Spec.isLinked heads s x → (h x).next = 0 ∧ (h x).prev = 0

/-- heap after `link2` -/
def linkH (h : Heap) (p x n : Nat) : Heap := fun q =>
  { next := if q = p then n else if q = n then x else (h q).next
    prev := if q = n then p else if q = x then n else (h q).prev }

theorem link2_eq {h : Heap} {p x n : Nat} (hp : p ≠ 0) (hx : x ≠ 0) (hn : n ≠ 0) :
    link2 h p x n = some (linkH h p x n) := by
  unfold link2 setPrev setNext
  simp only [hp, hx, hn, if_false, Option.bind_eq_bind, Option.bind_some]
  congr 1
  funext q
  unfold linkH
  by_cases h1 : q = p <;> by_cases h2 : q = n <;> by_cases h3 : q = x <;> simp [h1, h2, h3] <;>
    simp_all

/-- heap after unlinking `e` between `p` and `n` -/
def unlinkH (h : Heap) (p e n : Nat) : Heap := fun q =>
  { next := if q = e then 0 else if q = p then n else (h q).next
    prev := if q = e then 0 else if q = n then p else (h q).prev }

theorem unlink_eq {h : Heap} {e : Nat} (he : e ≠ 0) (hp : (h e).prev ≠ 0) (hn : (h e).next ≠ 0) :
    unlink h e = some (unlinkH h (h e).prev e (h e).next) := by
  unfold unlink getPrev getNext unlink2 setPrev setNext
  simp only [he, hp, hn, if_false, Option.bind_eq_bind, Option.bind_some, ne_eq, not_false_eq_true,
    and_self, if_true]
  congr 1
  funext q
  unfold unlinkH
  generalize (h e).prev = p at *
  generalize (h e).next = n at *
  by_cases h1 : q = p <;> by_cases h2 : q = n <;> by_cases h3 : q = e <;> simp [h1, h2, h3] <;>
    simp_all

theorem sim_insert {heads : List Nat} {h : Heap} {s : Spec.Lists} (hs : Sim heads h s) {a n : Nat}
    (ha : a ∈ heads) (hn : n ∉ heads) (hn0 : n ≠ 0) (hnl : ¬ Spec.isLinked heads s n)
    {L1 L2 : List Nat} (hL : s a = L1 ++ L2) {p x : Nat}
    (hp : p = (a :: L1).getLast (by simp)) (hx : x = (L2 ++ [a]).head (by simp)) :
    link2 h p x n = some (linkH h p x n) ∧
    Sim heads (linkH h p x n) (fun b => if b = a then L1 ++ n :: L2 else s b) := by
  have ha0 : a ≠ 0 := fun e => hs.nz (e ▸ ha)
  have hpm : p ∈ a :: L1 := by rw [hp]; exact List.getLast_mem _
  have hxm : x ∈ L2 ++ [a] := by rw [hx]; exact List.head_mem _
  have hnot : ∀ y ∈ s a, y ∉ heads ∧ y ≠ 0 := hs.nothead a ha
  have hns : ∀ b ∈ heads, n ∉ s b := fun b hb hm => hnl ⟨b, hb, hm⟩
  have hp0 : p ≠ 0 := by
    rcases List.mem_cons.1 hpm with e | e
    · rw [e]; exact ha0
    · exact (hnot p (by rw [hL]; simp [e])).2
  have hx0 : x ≠ 0 := by
    rcases List.mem_append.1 hxm with e | e
    · exact (hnot x (by rw [hL]; simp [e])).2
    · rw [List.mem_singleton.1 e]; exact ha0
  refine ⟨link2_eq hp0 hx0 hn0, ?_⟩
  have hnd := hs.nodup a ha
  rw [hL] at hnd hnot
  have hna : n ≠ a := fun e => hn (e ▸ ha)
  have hn12 : n ∉ L1 ∧ n ∉ L2 := by
    have := hns a ha; rw [hL] at this; simpa using this
  have haL : a ∉ L1 ∧ a ∉ L2 := by
    constructor <;> intro hm <;> exact (hnot a (by simp [hm])).1 ha
  -- split the old segment
  have hseg := hs.seg a ha
  rw [hL] at hseg
  -- Seg h a L1' p style facts
  have hnp : n ≠ p := by
    rintro rfl
    rcases List.mem_cons.1 hpm with e | e
    · exact hna e
    · exact hn12.1 e
  have hnx : n ≠ x := by
    rintro rfl
    rcases List.mem_append.1 hxm with e | e
    · exact hn12.2 e
    · exact hna (List.mem_singleton.1 e)
  have hpL2 : p ∉ L2 := by
    rcases List.mem_cons.1 hpm with e | e
    · rw [e]; exact haL.2
    · intro hm
      rw [List.nodup_append] at hnd
      exact hnd.2.2 p e p hm rfl
  have hxL1 : x ∉ L1 := by
    rcases List.mem_append.1 hxm with e | e
    · intro hm
      rw [List.nodup_append] at hnd
      exact hnd.2.2 x hm x e rfl
    · rw [List.mem_singleton.1 e]; exact haL.1
  constructor
  · intro b hb
    show Seg _ b (if b = a then _ else _) b
    by_cases hba : b = a
    · rw [if_pos hba, hba, seg_append]
      constructor
      · -- left part: a L1 n
        rcases snocCases L1 with rfl | ⟨M, z, rfl⟩
        · simp only [List.getLast_singleton] at hp
          subst hp
          exact ⟨by simp [linkH], by simp [linkH]⟩
        · have hpz : p = z := hp.trans (gl_snoc a z M)
          subst hpz
          rw [seg_append]
          rw [List.append_assoc, List.singleton_append, seg_append] at hseg
          refine ⟨seg_frame hseg.1 ?_ ?_, by simp [linkH], by simp [linkH]⟩
          · intro y hy
            have hyp : y ≠ p := by
              rintro rfl
              rcases List.mem_cons.1 hy with e | e
              · exact haL.1 (by rw [← e]; simp)
              · rw [List.nodup_append, List.nodup_append] at hnd
                exact hnd.1.2.2 y e y (by simp) rfl
            have hyn : y ≠ n := by
              rintro rfl
              rcases List.mem_cons.1 hy with e | e
              · exact hna e
              · exact hn12.1 (by simp [e])
            simp [linkH, hyp, hyn]
          · intro y hy
            have hyn : y ≠ n := by
              rintro rfl; exact hn12.1 hy
            have hyx : y ≠ x := by rintro rfl; exact hxL1 hy
            simp [linkH, hyx, hyn]
      · -- right part: n L2 a
        cases L2 with
        | nil =>
          simp only [List.nil_append, List.head_cons] at hx
          subst hx
          refine ⟨?_, ?_⟩
          · simp [linkH, hnp]
          · simp [linkH, Ne.symm hna]
        | cons z M =>
          have hxz : x = z := by rw [hx]; simp
          subst hxz
          rw [seg_append] at hseg
          refine ⟨by simp [linkH, hnp], by simp [linkH, Ne.symm hnx], seg_frame hseg.2 ?_ ?_⟩
          · intro y hy
            have hyp : y ≠ p := by rintro rfl; exact hpL2 hy
            have hyn : y ≠ n := by rintro rfl; exact hn12.2 hy
            simp [linkH, hyp, hyn]
          · intro y hy
            have hyx : y ≠ x := by
              rintro rfl
              rcases List.mem_append.1 hy with e | e
              · rw [List.nodup_append, List.nodup_cons] at hnd
                exact hnd.2.1.1 e
              · exact haL.2 (by rw [← List.mem_singleton.1 e]; simp)
            have hyn : y ≠ n := by
              rintro rfl
              rcases List.mem_append.1 hy with e | e
              · exact hn12.2 (by simp [e])
              · exact hna (List.mem_singleton.1 e)
            simp [linkH, hyx, hyn]
    · rw [if_neg hba]
      have hout : ∀ y, y ∈ b :: s b → y ≠ p ∧ y ≠ n ∧ y ≠ x := by
        intro y hy
        have key : y ∉ s a ∧ y ≠ a ∧ y ≠ n := by
          rcases List.mem_cons.1 hy with e | e
          · rw [e]
            refine ⟨fun hm => ?_, hba, fun e' => hn (e' ▸ hb)⟩
            rw [hL] at hm
            exact (hnot b hm).1 hb
          · refine ⟨hs.disj b hb a ha hba y e, ?_, ?_⟩
            · rintro rfl; exact (hs.nothead b hb y e).1 ha
            · rintro rfl; exact hns b hb e
        refine ⟨?_, key.2.2, ?_⟩
        · rintro rfl
          rcases List.mem_cons.1 hpm with e | e
          · exact key.2.1 e
          · exact key.1 (by rw [hL]; simp [e])
        · rintro rfl
          rcases List.mem_append.1 hxm with e | e
          · exact key.1 (by rw [hL]; simp [e])
          · exact key.2.1 (List.mem_singleton.1 e)
      refine seg_frame (hs.seg b hb) ?_ ?_
      · intro y hy
        have := hout y hy
        simp [linkH, this]
      · intro y hy
        have := hout y (by simp at hy ⊢; tauto)
        simp [linkH, this]
  · exact hs.nz
  · intro b hb
    show List.Nodup (if b = a then _ else _)
    by_cases hba : b = a
    · rw [if_pos hba]
      rw [List.nodup_append] at hnd ⊢
      refine ⟨hnd.1, List.nodup_cons.2 ⟨hn12.2, hnd.2.1⟩, ?_⟩
      intro y hy z hz
      rcases List.mem_cons.1 hz with e | e
      · rw [e]; rintro rfl; exact hn12.1 hy
      · exact hnd.2.2 y hy z e
    · rw [if_neg hba]; exact hs.nodup b hb
  · intro b hb y hy
    try simp only at hy
    by_cases hba : b = a
    · rw [if_pos hba] at hy
      rcases List.mem_append.1 hy with e | e
      · exact hnot y (by simp [e])
      · rcases List.mem_cons.1 e with e | e
        · rw [e]; exact ⟨hn, hn0⟩
        · exact hnot y (by simp [e])
    · rw [if_neg hba] at hy; exact hs.nothead b hb y hy
  · intro b hb c hc hbc y hy
    try simp only at hy ⊢
    by_cases hba : b = a
    · have hca : c ≠ a := fun e => hbc (hba.trans e.symm)
      rw [if_pos hba] at hy
      rw [if_neg hca]
      rcases List.mem_append.1 hy with e | e
      · exact hs.disj a ha c hc (Ne.symm hca) y (by rw [hL]; simp [e])
      · rcases List.mem_cons.1 e with e | e
        · rw [e]; exact hns c hc
        · exact hs.disj a ha c hc (Ne.symm hca) y (by rw [hL]; simp [e])
    · rw [if_neg hba] at hy
      by_cases hca : c = a
      · rw [if_pos hca]
        intro hm
        rcases List.mem_append.1 hm with e | e
        · exact hs.disj b hb a ha hba y hy (by rw [hL]; simp [e])
        · rcases List.mem_cons.1 e with e | e
          · rw [e] at hy; exact hns b hb hy
          · exact hs.disj b hb a ha hba y hy (by rw [hL]; simp [e])
      · rw [if_neg hca]; exact hs.disj b hb c hc hbc y hy
  · intro y hyh hyl
    have h1 : ¬ Spec.isLinked heads s y := by
      rintro ⟨b, hb, hm⟩
      apply hyl
      refine ⟨b, hb, ?_⟩
      try simp only
      by_cases hba : b = a
      · rw [if_pos hba]
        rw [hba, hL] at hm
        simp at hm ⊢; tauto
      · rw [if_neg hba]; exact hm
    have hyn : y ≠ n := by
      rintro rfl
      exact hyl ⟨a, ha, by simp⟩
    have hyp : y ≠ p := by
      rintro rfl
      rcases List.mem_cons.1 hpm with e | e
      · exact hyh (e ▸ ha)
      · exact h1 ⟨a, ha, by rw [hL]; simp [e]⟩
    have hyx : y ≠ x := by
      rintro rfl
      rcases List.mem_append.1 hxm with e | e
      · exact h1 ⟨a, ha, by rw [hL]; simp [e]⟩
      · exact hyh (List.mem_singleton.1 e ▸ ha)
    simpa [linkH, hyn, hyp, hyx] using hs.unl y hyh h1

theorem seg_first {h : Heap} {a b : Nat} {L : List Nat} (hs : Seg h a L b) :
    (h a).next = (L ++ [b]).head (by simp) := by
  cases L with
  | nil => simpa [Seg] using hs.1
  | cons x L => simpa [Seg] using hs.1

theorem seg_last {h : Heap} {b : Nat} : ∀ {L : List Nat} {a : Nat}, Seg h a L b →
    (h b).prev = (a :: L).getLast (by simp) := by
  intro L
  induction L with
  | nil => intro a hs; simpa [Seg] using hs.2
  | cons x L ih => intro a hs; rw [ih hs.2.2]; simp

theorem sim_link {heads : List Nat} {h : Heap} {s : Spec.Lists} (hs : Sim heads h s) {a n : Nat}
    (hal : Spec.Allowed heads s (.link a n)) :
    ∃ h', link h a n = some h' ∧ Sim heads h' (Spec.step s (.link a n)) := by
  obtain ⟨ha, hn, hn0, hnl⟩ := hal
  have ha0 : a ≠ 0 := fun e => hs.nz (e ▸ ha)
  have := sim_insert hs ha hn hn0 hnl (L1 := []) (L2 := s a) rfl (p := a) (x := (h a).next) (by simp)
    (seg_first (hs.seg a ha))
  refine ⟨linkH h a (h a).next n, ?_, ?_⟩
  · unfold link getNext
    rw [if_neg ha0]
    exact this.1
  · have e : Spec.step s (.link a n) = fun b => if b = a then [] ++ n :: s a else s b := by
      funext b
      simp only [Spec.step]
      split
      · rename_i e; rw [e]; rfl
      · rfl
    rw [e]; exact this.2

theorem sim_linkTail {heads : List Nat} {h : Heap} {s : Spec.Lists} (hs : Sim heads h s) {a n : Nat}
    (hal : Spec.Allowed heads s (.linkTail a n)) :
    ∃ h', linkTail h a n = some h' ∧ Sim heads h' (Spec.step s (.linkTail a n)) := by
  obtain ⟨ha, hn, hn0, hnl⟩ := hal
  have ha0 : a ≠ 0 := fun e => hs.nz (e ▸ ha)
  have := sim_insert hs ha hn hn0 hnl (L1 := s a) (L2 := []) (by simp) (p := (h a).prev) (x := a)
    (seg_last (hs.seg a ha)) (by simp)
  refine ⟨linkH h (h a).prev a n, ?_, ?_⟩
  · unfold linkTail getPrev
    rw [if_neg ha0]
    exact this.1
  · have e : Spec.step s (.linkTail a n) = fun b => if b = a then s a ++ n :: [] else s b := by
      funext b
      simp only [Spec.step]
      split
      · rename_i e; rw [e]
      · rfl
    rw [e]; exact this.2

theorem filter_ne_self {e : Nat} {l : List Nat} (h : e ∉ l) : l.filter (· ≠ e) = l := by
  rw [List.filter_eq_self]
  intro x hx
  simp only [decide_eq_true_eq]
  rintro rfl; exact h hx

theorem sim_remove {heads : List Nat} {h : Heap} {s : Spec.Lists} (hs : Sim heads h s) {a e : Nat}
    (ha : a ∈ heads) {L1 L2 : List Nat} (hL : s a = L1 ++ e :: L2) :
    unlink h e = some (unlinkH h (h e).prev e (h e).next) ∧
    Sim heads (unlinkH h (h e).prev e (h e).next) (fun b => if b = a then L1 ++ L2 else s b) := by
  have ha0 : a ≠ 0 := fun e => hs.nz (e ▸ ha)
  have hnot : ∀ y ∈ s a, y ∉ heads ∧ y ≠ 0 := hs.nothead a ha
  have hseg := hs.seg a ha
  have hnd := hs.nodup a ha
  rw [hL] at hseg hnd hnot
  rw [seg_append] at hseg
  have hp := seg_last hseg.1
  have hx := seg_first hseg.2
  have hes : e ∈ s a := by rw [hL]; simp
  have hea : e ≠ a := by rintro rfl; exact (hnot e (by simp)).1 ha
  have hpm : (h e).prev ∈ a :: L1 := by rw [hp]; exact List.getLast_mem _
  have hxm : (h e).next ∈ L2 ++ [a] := by rw [hx]; exact List.head_mem _
  have hp0 : (h e).prev ≠ 0 := by
    rcases List.mem_cons.1 hpm with q | q
    · rw [q]; exact ha0
    · exact (hnot _ (by simp [q])).2
  have hx0 : (h e).next ≠ 0 := by
    rcases List.mem_append.1 hxm with q | q
    · exact (hnot _ (by simp [q])).2
    · rw [List.mem_singleton.1 q]; exact ha0
  refine ⟨unlink_eq (hnot e (by simp)).2 hp0 hx0, ?_⟩
  generalize (h e).prev = p at *
  generalize (h e).next = x at *
  have haL : a ∉ L1 ∧ a ∉ L2 := by
    constructor <;> intro hm <;> exact (hnot a (by simp [hm])).1 ha
  rw [List.nodup_append, List.nodup_cons] at hnd
  obtain ⟨hnd1, ⟨heL2, hnd2⟩, hnd3⟩ := hnd
  have heL1 : e ∉ L1 := fun hm => hnd3 e hm e (by simp) rfl
  have hd12 : ∀ y ∈ L1, y ∉ L2 := fun y h1 h2 => hnd3 y h1 y (by simp [h2]) rfl
  have hep : e ≠ p := by
    rintro rfl
    rcases List.mem_cons.1 hpm with q | q
    · exact hea q
    · exact heL1 q
  have hex : e ≠ x := by
    rintro rfl
    rcases List.mem_append.1 hxm with q | q
    · exact heL2 q
    · exact hea (List.mem_singleton.1 q)
  have hpL2 : p ∉ L2 := by
    rcases List.mem_cons.1 hpm with q | q
    · rw [q]; exact haL.2
    · exact hd12 p q
  have hxL1 : x ∉ L1 := by
    rcases List.mem_append.1 hxm with q | q
    · exact fun hm => hd12 x hm q
    · rw [List.mem_singleton.1 q]; exact haL.1
  have hsub : ∀ y, y ∈ L1 ++ L2 → y ∈ s a ∧ y ≠ e := by
    intro y hy
    rw [hL]
    rcases List.mem_append.1 hy with q | q
    · exact ⟨by simp [q], by rintro rfl; exact heL1 q⟩
    · exact ⟨by simp [q], by rintro rfl; exact heL2 q⟩
  constructor
  · intro b hb
    show Seg _ b (if b = a then _ else _) b
    by_cases hba : b = a
    · rw [if_pos hba, hba]
      have left : ∀ M, L1 = M ++ [p] → Seg (unlinkH h p e x) a M p := by
        intro M hM
        subst hM
        rw [seg_append] at hseg
        refine seg_frame hseg.1.1 ?_ ?_
        · intro y hy
          have hyp : y ≠ p := by
            rintro rfl
            rcases List.mem_cons.1 hy with q | q
            · exact haL.1 (by rw [← q]; simp)
            · rw [List.nodup_append] at hnd1
              exact hnd1.2.2 y q y (by simp) rfl
          have hye : y ≠ e := by
            rintro rfl
            rcases List.mem_cons.1 hy with q | q
            · exact hea q
            · exact heL1 (by simp [q])
          simp [unlinkH, hyp, hye]
        · intro y hy
          have hye : y ≠ e := by rintro rfl; exact heL1 hy
          have hyx : y ≠ x := by rintro rfl; exact hxL1 hy
          simp [unlinkH, hye, hyx]
      have right : ∀ M, L2 = x :: M → Seg (unlinkH h p e x) x M a := by
        intro M hM
        subst hM
        refine seg_frame hseg.2.2.2 ?_ ?_
        · intro y hy
          have hyp : y ≠ p := by rintro rfl; exact hpL2 hy
          have hye : y ≠ e := by rintro rfl; exact heL2 hy
          simp [unlinkH, hyp, hye]
        · intro y hy
          have hyx : y ≠ x := by
            rintro rfl
            rcases List.mem_append.1 hy with q | q
            · exact (List.nodup_cons.1 hnd2).1 q
            · exact haL.2 (by rw [← List.mem_singleton.1 q]; simp)
          have hye : y ≠ e := by
            rintro rfl
            rcases List.mem_append.1 hy with q | q
            · exact heL2 (by simp [q])
            · exact hea (List.mem_singleton.1 q)
          simp [unlinkH, hye, hyx]
      have mid : Seg (unlinkH h p e x) p [] x := by
        refine ⟨?_, ?_⟩
        · simp [unlinkH, Ne.symm hep]
        · simp [unlinkH, Ne.symm hex]
      rcases snocCases L1 with rfl | ⟨M, z, rfl⟩
      · have hpa : p = a := by rw [hp]; simp
        cases L2 with
        | nil =>
          have hxa : x = a := by rw [hx]; simp
          rw [hpa, hxa] at mid
          rw [hpa, hxa]
          exact mid
        | cons z N =>
          have hxz : x = z := by rw [hx]; simp
          have r := right N (by rw [hxz])
          rw [hxz, hpa] at mid r ⊢
          exact ⟨mid.1, mid.2, r⟩
      · have hpz : p = z := hp.trans (gl_snoc a z M)
        have l := left M (by rw [hpz])
        rw [List.append_assoc, List.singleton_append, seg_append, ← hpz]
        refine ⟨l, ?_⟩
        cases L2 with
        | nil =>
          have hxa : x = a := by rw [hx]; simp
          rw [hxa] at mid ⊢
          exact mid
        | cons w N =>
          have hxw : x = w := by rw [hx]; simp
          have r := right N (by rw [hxw])
          rw [hxw] at mid r ⊢
          exact ⟨mid.1, mid.2, r⟩
    · rw [if_neg hba]
      have hout : ∀ y, y ∈ b :: s b → y ≠ p ∧ y ≠ e ∧ y ≠ x := by
        intro y hy
        have key : y ∉ s a ∧ y ≠ a := by
          rcases List.mem_cons.1 hy with q | q
          · rw [q]
            refine ⟨fun hm => ?_, hba⟩
            rw [hL] at hm
            exact (hnot b hm).1 hb
          · refine ⟨hs.disj b hb a ha hba y q, ?_⟩
            rintro rfl; exact (hs.nothead b hb y q).1 ha
        refine ⟨?_, ?_, ?_⟩
        · rintro rfl
          rcases List.mem_cons.1 hpm with q | q
          · exact key.2 q
          · exact key.1 (by rw [hL]; simp [q])
        · rintro rfl; exact key.1 hes
        · rintro rfl
          rcases List.mem_append.1 hxm with q | q
          · exact key.1 (by rw [hL]; simp [q])
          · exact key.2 (List.mem_singleton.1 q)
      refine seg_frame (hs.seg b hb) ?_ ?_
      · intro y hy
        have := hout y hy
        simp [unlinkH, this]
      · intro y hy
        have := hout y (by simp at hy ⊢; tauto)
        simp [unlinkH, this]
  · exact hs.nz
  · intro b hb
    show List.Nodup (if b = a then _ else _)
    by_cases hba : b = a
    · rw [if_pos hba, List.nodup_append]
      exact ⟨hnd1, hnd2, fun y h1 z h2 => by rintro rfl; exact hd12 y h1 h2⟩
    · rw [if_neg hba]; exact hs.nodup b hb
  · intro b hb y hy
    try simp only at hy
    by_cases hba : b = a
    · rw [if_pos hba] at hy
      exact hs.nothead a ha y (hsub y hy).1
    · rw [if_neg hba] at hy; exact hs.nothead b hb y hy
  · intro b hb c hc hbc y hy
    try simp only at hy ⊢
    by_cases hba : b = a
    · have hca : c ≠ a := fun q => hbc (hba.trans q.symm)
      rw [if_pos hba] at hy
      rw [if_neg hca]
      exact hs.disj a ha c hc (Ne.symm hca) y (hsub y hy).1
    · rw [if_neg hba] at hy
      by_cases hca : c = a
      · rw [if_pos hca]
        intro hm
        exact hs.disj b hb a ha hba y hy (hsub y hm).1
      · rw [if_neg hca]; exact hs.disj b hb c hc hbc y hy
  · intro y hyh hyl
    by_cases hye : y = e
    · simp [unlinkH, hye]
    · have h1 : ¬ Spec.isLinked heads s y := by
        rintro ⟨b, hb, hm⟩
        apply hyl
        refine ⟨b, hb, ?_⟩
        try simp only
        by_cases hba : b = a
        · rw [if_pos hba]
          rw [hba, hL] at hm
          simp at hm ⊢; tauto
        · rw [if_neg hba]; exact hm
      have hyp : y ≠ p := by
        rintro rfl
        rcases List.mem_cons.1 hpm with q | q
        · exact hyh (q ▸ ha)
        · exact h1 ⟨a, ha, by rw [hL]; simp [q]⟩
      have hyx : y ≠ x := by
        rintro rfl
        rcases List.mem_append.1 hxm with q | q
        · exact h1 ⟨a, ha, by rw [hL]; simp [q]⟩
        · exact hyh (List.mem_singleton.1 q ▸ ha)
      simpa [unlinkH, hye, hyp, hyx] using hs.unl y hyh h1

/-- only the values at the heads matter -/
theorem Sim.congr {heads : List Nat} {h : Heap} {s t : Spec.Lists} (hs : Sim heads h s)
    (he : ∀ a ∈ heads, t a = s a) : Sim heads h t := by
  have hl : ∀ x, Spec.isLinked heads s x → Spec.isLinked heads t x := by
    rintro x ⟨a, ha, hm⟩; exact ⟨a, ha, by rw [he a ha]; exact hm⟩
  exact ⟨fun a ha => by rw [he a ha]; exact hs.seg a ha, hs.nz,
    fun a ha => by rw [he a ha]; exact hs.nodup a ha,
    fun a ha => by rw [he a ha]; exact hs.nothead a ha,
    fun a ha b hb => by rw [he a ha, he b hb]; exact hs.disj a ha b hb,
    fun x hx hn => hs.unl x hx (fun q => hn (hl x q))⟩

theorem sim_unlink {heads : List Nat} {h : Heap} {s : Spec.Lists} (hs : Sim heads h s) {e : Nat}
    (he : e ∉ heads) (he0 : e ≠ 0) :
    ∃ h', unlink h e = some h' ∧ Sim heads h' (Spec.step s (.unlink e)) ∧
      (¬ Spec.isLinked heads s e → h' = h) := by
  by_cases hl : Spec.isLinked heads s e
  · obtain ⟨a, ha, hm⟩ := hl
    obtain ⟨L1, L2, hL⟩ := List.append_of_mem hm
    have := sim_remove hs ha hL
    refine ⟨_, this.1, this.2.congr ?_, fun hn => absurd ⟨a, ha, hm⟩ hn⟩
    intro b hb
    simp only [Spec.step]
    by_cases hba : b = a
    · rw [if_pos hba, hba, hL]
      have hnd := hs.nodup a ha
      rw [hL, List.nodup_append, List.nodup_cons] at hnd
      rw [List.filter_append, List.filter_cons_of_neg (by simp),
        filter_ne_self (fun q => hnd.2.2 e q e (by simp) rfl), filter_ne_self hnd.2.1.1]
    · rw [if_neg hba]
      exact filter_ne_self (hs.disj a ha b hb (Ne.symm hba) e hm)
  · have := hs.unl e he hl
    refine ⟨h, ?_, hs.congr ?_, fun _ => rfl⟩
    · unfold unlink getPrev getNext
      simp [he0, this]
    · intro b hb
      exact filter_ne_self (fun q => hl ⟨b, hb, q⟩)

theorem sim_step {heads : List Nat} {h : Heap} {s : Spec.Lists} (hs : Sim heads h s) {o : Op}
    (ho : Spec.Allowed heads s o) : ∃ h', step h o = some h' ∧ Sim heads h' (Spec.step s o) := by
  cases o with
  | link a n => exact sim_link hs ho
  | linkTail a n => exact sim_linkTail hs ho
  | unlink e => obtain ⟨h', h1, h2, _⟩ := sim_unlink hs ho.1 ho.2; exact ⟨h', h1, h2⟩

theorem sim_run {heads : List Nat} : ∀ (ops : List Op) {h : Heap} {s : Spec.Lists}, Sim heads h s →
    Spec.AllAllowed heads s ops → ∃ h', run h ops = some h' ∧ Sim heads h' (Spec.run s ops) := by
  intro ops
  induction ops with
  | nil => intro h s hs _; exact ⟨h, rfl, hs⟩
  | cons o t ih =>
    intro h s hs ha
    obtain ⟨h1, e1, s1⟩ := sim_step hs ha.1
    obtain ⟨h2, e2, s2⟩ := ih s1 ha.2
    exact ⟨h2, by simp [run, e1, e2], s2⟩

theorem walkFrom_seg {h : Heap} {head : Nat} : ∀ {L : List Nat} {a fuel : Nat}, Seg h a L head →
    (∀ x ∈ L, x ≠ head ∧ x ≠ 0) → L.length < fuel → walkFrom h head fuel (h a).next = some L := by
  intro L
  induction L with
  | nil =>
    intro a fuel hs _ hf
    obtain ⟨f, rfl⟩ : ∃ f, fuel = f + 1 := ⟨fuel - 1, by omega⟩
    simp [walkFrom, hs.1]
  | cons x L ih =>
    intro a fuel hs hx hf
    obtain ⟨f, rfl⟩ : ∃ f, fuel = f + 1 := ⟨fuel - 1, by omega⟩
    have h1 := hx x (by simp)
    have := ih (fuel := f) hs.2.2 (fun y hy => hx y (by simp [hy])) (by simp at hf; omega)
    simp [walkFrom, hs.1, h1, getNext, this]

theorem walkBackFrom_seg {h : Heap} {head : Nat} : ∀ {L : List Nat} {b fuel : Nat}, Seg h head L b →
    (∀ x ∈ L, x ≠ head ∧ x ≠ 0) → L.length < fuel →
    walkBackFrom h head fuel (h b).prev = some L.reverse := by
  intro L
  induction L using snocInd with
  | nil =>
    intro a fuel hs _ hf
    obtain ⟨f, rfl⟩ : ∃ f, fuel = f + 1 := ⟨fuel - 1, by omega⟩
    simp [walkBackFrom, hs.2]
  | snoc L x ih =>
    intro a fuel hs hx hf
    obtain ⟨f, rfl⟩ : ∃ f, fuel = f + 1 := ⟨fuel - 1, by omega⟩
    rw [seg_append] at hs
    have h1 := hx x (by simp)
    have := ih (fuel := f) hs.1 (fun y hy => hx y (by simp [hy])) (by simp at hf; omega)
    simp [walkBackFrom, hs.2.2, h1, getPrev, this]

theorem walkSafe_sim {heads : List Nat} (drop : Nat → Bool) {a : Nat} (ha : a ∈ heads) :
    ∀ (L K : List Nat) {h : Heap} {s : Spec.Lists} {fuel : Nat}, Sim heads h s → s a = K ++ L →
    L.length < fuel → ∀ iter tmp, iter = (L ++ [a, (h a).next]).head (by simp) →
      tmp = (L ++ [a, (h a).next]).tail.head (by cases L <;> simp) →
    ∃ h', walkSafeFrom drop a fuel h iter tmp = some (h', L) ∧
      Sim heads h' (fun b => if b = a then K ++ L.filter (fun x => !drop x) else s b) := by
  intro L
  induction L with
  | nil =>
    intro K h s fuel hs hL hf iter tmp hi ht
    obtain ⟨f, rfl⟩ : ∃ f, fuel = f + 1 := ⟨fuel - 1, by omega⟩
    simp only [List.nil_append, List.head_cons] at hi
    refine ⟨h, by simp [walkSafeFrom, hi], hs.congr ?_⟩
    intro b hb
    try simp only
    split
    · rename_i e; rw [e, hL]; simp
    · rfl
  | cons x L ih =>
    intro K h s fuel hs hL hf iter tmp hi ht
    obtain ⟨f, rfl⟩ : ∃ f, fuel = f + 1 := ⟨fuel - 1, by omega⟩
    simp only [List.cons_append, List.head_cons] at hi
    simp only [List.cons_append, List.tail_cons] at ht
    have hxs : x ∈ s a := by rw [hL]; simp
    have hx := hs.nothead a ha x hxs
    have hxa : x ≠ a := by rintro rfl; exact hx.1 ha
    have ha0 : a ≠ 0 := fun e => hs.nz (e ▸ ha)
    rw [hi]
    have htm : tmp = (L ++ [a]).head (by simp) := by rw [ht]; cases L <;> simp
    have ht0 : tmp ≠ 0 := by
      rw [htm]
      cases L with
      | nil => simpa using ha0
      | cons y L => simpa using (hs.nothead a ha y (by rw [hL]; simp)).2
    -- the heap after the loop body
    obtain ⟨h1, e1, s1, hK⟩ : ∃ h1, (if drop x then unlink h x else some h) = some h1 ∧
        ∃ t : Spec.Lists, Sim heads h1 t ∧
          t a = (K ++ (if drop x then [] else [x])) ++ L ∧ ∀ b ∈ heads, b ≠ a → t b = s b := by
      cases hd : drop x with
      | true =>
        have := sim_remove hs ha hL
        refine ⟨_, by rw [if_pos rfl]; exact this.1, _, this.2, by simp, ?_⟩
        intro b _ hb; simp [hb]
      | false => exact ⟨h, by simp, s, hs, by simp [hL], fun _ _ _ => rfl⟩
    obtain ⟨hS, hKa, hKb⟩ := hK
    -- next of tmp
    have hseg := hS.seg a ha
    rw [hKa] at hseg
    have hnx : (h1 tmp).next = (L ++ [a, (h1 a).next]).tail.head (by cases L <;> simp) := by
      cases L with
      | nil =>
        simp at htm ⊢
        rw [htm]
      | cons y L =>
        simp at htm
        rw [seg_append] at hseg
        have := seg_first hseg.2
        rw [← htm] at this
        rw [this]
        cases L <;> simp
    obtain ⟨h2, e2, s2⟩ := ih _ (fuel := f) hS hKa (by simp at hf; omega) tmp (h1 tmp).next
      (by rw [htm]; cases L <;> simp) hnx
    refine ⟨h2, ?_, s2.congr ?_⟩
    · rw [walkSafeFrom, if_neg hxa, e1]
      simp only [Option.bind_eq_bind, Option.bind_some, getNext, if_neg ht0, e2]
      rfl
    · intro b hb
      try simp only
      split
      · cases hd : drop x <;> simp [hd]
      · rename_i hne; exact (hKb b hb hne).symm

end Verif.Dlist
