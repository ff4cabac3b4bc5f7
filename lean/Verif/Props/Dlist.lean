import Verif.Proof.Dlist
/-!
# C10: linked lists behave like sequences
-/
namespace Verif.Dlist
open Verif.C

theorem sim_fresh {heads : List Nat} {h : Heap} (hf : Spec.Fresh heads h) : Sim heads h (fun _ => []) := by
  obtain ⟨h0, h1, h2⟩ := hf
  refine ⟨fun a ha => ?_, h0, fun _ _ => List.nodup_nil, fun _ _ _ hx => (by simp at hx), fun _ _ _ _ _ _ hx => (by simp at hx), fun x hx _ => ?_⟩
  · simp [Seg, h1 a ha]
  · simp [h2 x hx]

/-- **C10.** Any sequence of allowed calls on any number of lists runs without touching NULL,
and afterwards, for every list, walking forwards visits exactly the ideal sequence, walking
backwards visits its reverse, and the queries agree with the ideal sequence. -/
theorem dlist_refines_sequences (heads : List Nat) (h : Heap) (hf : Spec.Fresh heads h)
    (ops : List Op) (ha : Spec.AllAllowed heads (fun _ => []) ops) :
    ∃ h', run h ops = some h' ∧
      (∀ a ∈ heads, ∀ fuel, ((Spec.run (fun _ => []) ops) a).length < fuel →
        walk h' a fuel = some ((Spec.run (fun _ => []) ops) a) ∧
        walkBack h' a fuel = some ((Spec.run (fun _ => []) ops) a).reverse) ∧
      (∀ a ∈ heads, empty h' a = some (decide ((Spec.run (fun _ => []) ops) a = []))) ∧
      (∀ a ∈ heads, first h' a = some (((Spec.run (fun _ => []) ops) a).head?.getD a)) ∧
      (∀ a ∈ heads, last h' a = some (((Spec.run (fun _ => []) ops) a).getLast?.getD a)) ∧
      (∀ e, e ∉ heads → e ≠ 0 → ∃ b, linked h' e = some b ∧
        (b = true ↔ Spec.isLinked heads (Spec.run (fun _ => []) ops) e)) := by
  obtain ⟨h', e, hs⟩ := sim_run ops (sim_fresh hf) ha
  refine ⟨h', e, ?_, ?_, ?_, ?_, ?_⟩
  all_goals generalize Spec.run (fun _ => []) ops = s at *
  · intro a ha fuel hfl
    have ha0 : a ≠ 0 := fun e => hs.nz (e ▸ ha)
    have hx : ∀ x ∈ s a, x ≠ a ∧ x ≠ 0 := by
      intro x hx
      have := hs.nothead a ha x hx
      exact ⟨by rintro rfl; exact this.1 ha, this.2⟩
    constructor
    · simp [walk, getNext, ha0, walkFrom_seg (hs.seg a ha) hx hfl]
    · simp [walkBack, getPrev, ha0, walkBackFrom_seg (hs.seg a ha) hx hfl]
  · intro a ha
    have ha0 : a ≠ 0 := fun e => hs.nz (e ▸ ha)
    have hn := seg_first (hs.seg a ha)
    simp only [empty, getNext, if_neg ha0, Option.bind_eq_bind, Option.bind_some, Option.pure_def,
      Option.some.injEq, decide_eq_decide]
    have hnh := hs.nothead a ha
    cases hsa : s a with
    | nil => simp only [hsa] at hn; simpa using hn
    | cons x L =>
      simp only [hsa] at hn hnh
      simp only [List.cons_append, List.head_cons] at hn
      simp only [hn, reduceCtorEq, iff_false]
      rintro rfl
      exact (hnh x (by simp)).1 ha
  · intro a ha
    have ha0 : a ≠ 0 := fun e => hs.nz (e ▸ ha)
    have hn := seg_first (hs.seg a ha)
    simp only [first, getNext, if_neg ha0, Option.some.injEq]
    rw [hn]
    cases s a <;> simp
  · intro a ha
    have ha0 : a ≠ 0 := fun e => hs.nz (e ▸ ha)
    have hn := seg_last (hs.seg a ha)
    simp only [last, getPrev, if_neg ha0, Option.some.injEq]
    rw [hn]
    rcases snocCases (s a) with e | ⟨M, z, e⟩
    · simp [e]
    · simp only [e, gl_snoc]; simp
  · intro e he he0
    refine ⟨decide ((h' e).next ≠ 0 ∧ (h' e).prev ≠ 0), by simp [linked, getNext, getPrev, he0], ?_⟩
    rw [decide_eq_true_iff]
    constructor
    · intro hne
      apply Classical.byContradiction
      intro hn
      exact hne.1 (hs.unl e he hn).1
    · rintro ⟨a, ha, hm⟩
      have ha0 : a ≠ 0 := fun e => hs.nz (e ▸ ha)
      obtain ⟨L1, L2, hL⟩ := List.append_of_mem hm
      have hseg := hs.seg a ha
      have hnh := hs.nothead a ha
      rw [hL] at hseg hnh
      rw [seg_append] at hseg
      constructor
      · rw [seg_first hseg.2]
        cases L2 with
        | nil => simpa using ha0
        | cons y L2 => simpa using (hnh y (by simp)).2
      · rw [seg_last hseg.1]
        have : (a :: L1).getLast (by simp) ∈ a :: L1 := List.getLast_mem _
        rcases List.mem_cons.1 this with q | q
        · rw [q]; exact ha0
        · exact (hnh _ (by simp [q])).2

/-- **C10.** Unlinking an entry that is in no list changes nothing. -/
theorem unlink_unlinked_noop (heads : List Nat) (h : Heap) (hf : Spec.Fresh heads h)
    (ops : List Op) (ha : Spec.AllAllowed heads (fun _ => []) ops) (h' : Heap)
    (hr : run h ops = some h') (e : Nat) (he : e ∉ heads) (he0 : e ≠ 0)
    (hn : ¬ Spec.isLinked heads (Spec.run (fun _ => []) ops) e) : unlink h' e = some h' := by
  obtain ⟨h1, e1, hs⟩ := sim_run ops (sim_fresh hf) ha
  rw [hr] at e1
  obtain rfl := Option.some.inj e1
  obtain ⟨h2, e2, _, h3⟩ := sim_unlink hs he he0
  rw [e2, h3 hn]

/-- **C10.** `shl_dlist_for_each_safe` with a body that unlinks any chosen subset of the entries
it is handed visits every entry once, in order, and leaves exactly the entries not chosen. -/
theorem for_each_safe_visits_all (heads : List Nat) (h : Heap) (hf : Spec.Fresh heads h)
    (ops : List Op) (ha : Spec.AllAllowed heads (fun _ => []) ops) (h' : Heap)
    (hr : run h ops = some h') (drop : Nat → Bool) (a : Nat) (ham : a ∈ heads) (fuel : Nat)
    (hfl : ((Spec.run (fun _ => []) ops) a).length < fuel) :
    ∃ h2, walkSafe drop h' a fuel = some (h2, (Spec.run (fun _ => []) ops) a) ∧
      walk h2 a fuel = some (((Spec.run (fun _ => []) ops) a).filter (fun x => !drop x)) ∧
      ∀ b ∈ heads, b ≠ a → ∀ fuel', ((Spec.run (fun _ => []) ops) b).length < fuel' →
        walk h2 b fuel' = some ((Spec.run (fun _ => []) ops) b) := by
  obtain ⟨h1, e1, hs⟩ := sim_run ops (sim_fresh hf) ha
  rw [hr] at e1
  obtain rfl := Option.some.inj e1
  generalize Spec.run (fun _ => []) ops = s at *
  have ha0 : a ≠ 0 := fun e => hs.nz (e ▸ ham)
  have hseg := hs.seg a ham
  have hi := seg_first hseg
  have hi0 : (h' a).next ≠ 0 := by
    have hnh := hs.nothead a ham
    rw [hi]
    cases hsa : s a with
    | nil => simpa using ha0
    | cons x L => simpa using (hnh x (by rw [hsa]; simp)).2
  obtain ⟨h2, e2, s2⟩ := walkSafe_sim drop ham (s a) [] hs rfl hfl (h' a).next (h' (h' a).next).next
    (by rw [hi]; cases s a <;> simp) (by
      cases hsa : s a with
      | nil =>
        simp only [hsa] at hi
        simp at hi
        simp [hi]
      | cons x L =>
        rw [hsa] at hseg
        have h4 := seg_first hseg.2.2
        rw [hseg.1, h4]
        cases L <;> simp)
  refine ⟨h2, by simp [walkSafe, getNext, ha0, hi0, e2], ?_, ?_⟩
  · have hsg := s2.seg a ham
    have hnh := s2.nothead a ham
    simp only [if_true, List.nil_append] at hsg hnh
    have hx : ∀ x ∈ (s a).filter (fun x => !drop x), x ≠ a ∧ x ≠ 0 := by
      intro x hx
      have := hnh x hx
      exact ⟨by rintro rfl; exact this.1 ham, this.2⟩
    have := walkFrom_seg hsg hx (fuel := fuel) (by
      have := List.length_filter_le (fun x => !drop x) (s a); omega)
    simp [walk, getNext, ha0, this]
  · intro b hb hba fuel' hf'
    have hb0 : b ≠ 0 := fun e => hs.nz (e ▸ hb)
    have hsg := s2.seg b hb
    have hnh := s2.nothead b hb
    simp only [if_neg hba] at hsg hnh
    have hx : ∀ x ∈ s b, x ≠ b ∧ x ≠ 0 := by
      intro x hx
      have := hnh x hx
      exact ⟨by rintro rfl; exact this.1 hb, this.2⟩
    simp [walk, getNext, hb0, walkFrom_seg hsg hx hf']

/-- two heads 1 and 2, entries 10, 11, 12 -/
example : Spec.AllAllowed [1, 2] (fun _ => [])
    [.link 1 10, .linkTail 1 11, .linkTail 2 12, .unlink 10, .unlink 10, .link 2 10] := by
  simp [Spec.AllAllowed, Spec.Allowed, Spec.step, Spec.isLinked]

example : Spec.run (fun _ => []) [.link 1 10, .linkTail 1 11, .linkTail 2 12, .unlink 10, .unlink 10, .link 2 10] 2
    = [10, 12] := by decide

example : (run (fun q => if q = 1 ∨ q = 2 then ⟨q, q⟩ else ⟨0, 0⟩)
    [.link 1 10, .linkTail 1 11, .linkTail 2 12, .unlink 10, .unlink 10, .link 2 10]).bind (walk · 2 5)
    = some [10, 12] := by decide

end Verif.Dlist
