import Verif.Proof.WpasMatch
/-!
# C68: messages that are not replies go to the matches

What is missing from the full claim: a match that is removed while a message is dispatched is still called for
this message (`removed_still_called`), removing one of two equal matches twice within a callback removes one only
(`removed_once_refuted`), and a match added by the last callback is not called although one added by an earlier
callback is (`added_sometimes_called`).
-/
namespace Verif.WpasMatch
open Verif.C

/-- **C68**: a message is given to the matches in the order in which they were added, to each at most once: the
matches called are the first ones of the list.  All but the last one called returned 0.  The last one called did
not return 0, or had no match behind it when it was called. -/
theorem dispatch_order_partial (ops : List Op) (r r' : Reg) (b : List (List MOp × Int)) (c : List Nat)
    (hr : run {} ops = some r) (h : call r b = some (r', c)) :
    c = (Spec.keys r ++ Spec.added (Spec.allOps (b.take c.length))).take c.length ∧
      (∀ j, j + 1 < c.length → (b[j]?).map (·.2) = some 0) ∧
      ((c ≠ [] ∧ ∃ o ret, b[c.length - 1]? = some (o, ret) ∧ ret ≠ 0) ∨
        c.length = (Spec.keys r ++ Spec.added (Spec.allOps (b.take (c.length - 1)))).length) := by
  unfold call at h
  simp only [Option.map_eq_some_iff, Prod.mk.injEq] at h
  obtain ⟨⟨r1, c1⟩, h1, -, rfl⟩ := h
  obtain ⟨a1, a2, a3, a4, -, a6⟩ := loop_calls b _ r1 0 c1 rfl (Nat.zero_le _) h1
  rw [List.drop_zero] at a3
  refine ⟨by rw [a2] at a3; exact a3, a4, ?_⟩
  rcases a6 with a6 | a6
  · exact Or.inl a6
  · refine Or.inr ?_
    rw [List.length_append]
    simpa [Spec.keys] using a6

/-- **C68**: if callbacks leave the list alone and return 0, every match is called. -/
theorem dispatch_all (ops : List Op) (r : Reg) (b : List (List MOp × Int)) (hr : run {} ops = some r)
    (hb : ∀ x ∈ b, x = ([], 0)) (hl : r.list.length ≤ b.length) : call r b = some (r, Spec.keys r) := by
  have hi : Idle r := idle_run ops ⟨rfl, by simp⟩ hr
  have key : ∀ (b : List (List MOp × Int)) (r : Reg) (i : Nat), (∀ x ∈ b, x = ([], 0)) → i ≤ r.list.length →
      r.list.length ≤ i + b.length → loop r i b = some (r, (Spec.keys r).drop i) := by
    intro b
    induction b with
    | nil =>
      intro r i _ h1 h2
      have : r.list.length = i := by simp at h2; omega
      unfold loop
      rw [if_neg (by omega), ← this]
      simp [Spec.keys]
    | cons x t ih =>
      intro r i hx h1 h2
      have hx0 := hx x (by simp)
      subst hx0
      unfold loop
      split
      · rename_i hn
        have hge : r.list.length ≤ i := by simpa using hn
        rw [List.drop_eq_nil_of_le (by simpa [Spec.keys] using hge)]
      · rename_i m hm
        have hlt : i < r.list.length := by
          rcases Nat.lt_or_ge i r.list.length with h' | h'
          · exact h'
          · rw [List.getElem?_eq_none h'] at hm; simp at hm
        have hd : (Spec.keys r).drop i = m.key :: (Spec.keys r).drop (i + 1) := by
          have hl' : i < (Spec.keys r).length := by simpa [Spec.keys] using hlt
          rw [List.drop_eq_getElem_cons hl']
          have : (Spec.keys r)[i]? = some m.key := by unfold Spec.keys; rw [List.getElem?_map, hm]; rfl
          rw [List.getElem?_eq_getElem hl'] at this
          simp at this
          rw [this]
        dsimp only
        rw [if_neg (by simp), List.foldl_nil]
        split
        · rename_i hl
          simp only [decide_eq_true_eq] at hl
          rw [hd, List.drop_eq_nil_of_le (by simp [Spec.keys, hl])]
        · rename_i hl
          rw [ih r (i + 1) (fun y hy => hx y (by simp [hy])) hlt (by simp at h2; omega), hd]
          rfl
  unfold call
  rw [key b { r with calling := true } 0 hb (Nat.zero_le _) (by simpa using hl)]
  have hf : r.list.filter (fun m => !m.removed) = r.list := by
    rw [List.filter_eq_self]; intro m hm; simp [hi.2 m hm]
  simp only [Option.map_some, List.drop_zero, hf, Spec.keys]
  rw [← hi.1]

/-- **C68**: removing takes out the match added last of those that are equal; the others stay in order. -/
theorem remove_last (ops : List Op) (r : Reg) (k : Nat) (hr : run {} ops = some r) :
    Spec.keys (remove r k) = Spec.survivors [k] (Spec.keys r) := by
  have hi : Idle r := idle_run ops ⟨rfl, by simp⟩ hr
  unfold Spec.keys remove
  simp only [hi.1, Bool.false_eq_true, if_false]
  exact keys_eraseLast k r.list

/-- **C68**: if callbacks remove but do not add matches, then after the dispatch, for each key removed by a
callback, the last match with it is gone, and all others are there in order. -/
theorem dispatch_removes (ops : List Op) (r r' : Reg) (b : List (List MOp × Int)) (c : List Nat)
    (hr : run {} ops = some r) (h : call r b = some (r', c)) (hn : Spec.added (Spec.allOps b) = []) :
    Spec.keys r' = Spec.survivors (Spec.gone (Spec.allOps (b.take c.length))) (Spec.keys r) := by
  have hi : Idle r := idle_run ops ⟨rfl, by simp⟩ hr
  unfold call at h
  simp only [Option.map_eq_some_iff, Prod.mk.injEq] at h
  obtain ⟨⟨r1, c1⟩, h1, rfl, rfl⟩ := h
  obtain ⟨a1, a2, a3, a4, a5, a6⟩ := loop_calls b _ r1 0 c1 rfl (Nat.zero_le _) h1
  have hn' : Spec.added (Spec.allOps (b.take c1.length)) = [] := by
    have : Spec.allOps b = Spec.allOps (b.take c1.length) ++ Spec.allOps (b.drop c1.length) := by
      unfold Spec.allOps; rw [← List.flatMap_append, List.take_append_drop]
    rw [this, added_append] at hn
    exact (List.append_eq_nil_iff.mp hn).1
  have hm : Marked ((Spec.gone (Spec.allOps (b.take c1.length))).reverse ++ []) r1.list := by
    rw [a5]
    exact Marked.foldl _ hn' rfl (Marked.nil_of hi.2)
  have := hm.filter
  show (r1.list.filter _).map _ = _
  rw [this, show r1.list.map (·.key) = Spec.keys r1 from rfl, a2, hn', List.append_nil, List.append_nil]
  exact survivors_congr (fun k => List.mem_reverse) _

/-- **C68**: if callbacks add but do not remove matches, the additions are at the end of the list afterwards. -/
theorem dispatch_adds (ops : List Op) (r r' : Reg) (b : List (List MOp × Int)) (c : List Nat)
    (hr : run {} ops = some r) (h : call r b = some (r', c)) (hn : Spec.gone (Spec.allOps b) = []) :
    Spec.keys r' = Spec.keys r ++ Spec.added (Spec.allOps (b.take c.length)) := by
  have hi : Idle r := idle_run ops ⟨rfl, by simp⟩ hr
  unfold call at h
  simp only [Option.map_eq_some_iff, Prod.mk.injEq] at h
  obtain ⟨⟨r1, c1⟩, h1, rfl, rfl⟩ := h
  obtain ⟨a1, a2, a3, a4, a5, a6⟩ := loop_calls b _ r1 0 c1 rfl (Nat.zero_le _) h1
  have hn' : Spec.gone (Spec.allOps (b.take c1.length)) = [] := by
    have : Spec.allOps b = Spec.allOps (b.take c1.length) ++ Spec.allOps (b.drop c1.length) := by
      unfold Spec.allOps; rw [← List.flatMap_append, List.take_append_drop]
    rw [this] at hn
    unfold Spec.gone at hn ⊢
    rw [List.filterMap_append] at hn
    exact (List.append_eq_nil_iff.mp hn).1
  have hrem : ∀ (l : List MOp) (r : Reg), Spec.gone l = [] → (∀ m ∈ r.list, m.removed = false) →
      ∀ m ∈ (l.foldl change r).list, m.removed = false := by
    intro l
    induction l with
    | nil => intro r _ h; exact h
    | cons o t ih =>
      intro r hg h
      cases o with
      | remove k => simp [Spec.gone] at hg
      | add k =>
        refine ih _ (by simpa [Spec.gone] using hg) ?_
        intro m hm
        rcases List.mem_append.mp hm with hm | hm
        · exact h m hm
        · simp only [List.mem_singleton] at hm; rw [hm]
  have hf : r1.list.filter (fun m => !m.removed) = r1.list := by
    rw [List.filter_eq_self]
    intro m hm
    rw [a5] at hm
    simp [hrem _ { r with calling := true } hn' hi.2 m hm]
  show (r1.list.filter _).map _ = _
  rw [hf]
  exact a2

/-- Three matches; the second takes the message. -/
example : (run {} [.change (.add 4), .change (.add 5), .change (.add 6)]).bind
    (fun r => (call r [([], 0), ([], 1)]).map (·.2)) = some [4, 5] := by decide +kernel

/-- The first of three callbacks removes itself and adds another match; all four are called. -/
example : (run {} [.change (.add 4), .change (.add 5), .change (.add 6)]).bind
    (fun r => (call r [([.remove 4, .add 7], 0), ([], 0), ([], 0), ([], 0)]).map (fun x => (Spec.keys x.1, x.2))) =
    some ([5, 6, 7], [4, 5, 6, 7]) := by decide +kernel

/-- A match that an earlier callback has removed is called nevertheless. -/
theorem removed_still_called : (run {} [.change (.add 4), .change (.add 5)]).bind
    (fun r => (call r [([.remove 5], 0), ([], 0)]).map (fun x => (Spec.keys x.1, x.2))) =
    some ([4], [4, 5]) := by decide +kernel

/-- Two equal matches, removed twice by a callback: one stays.  Outside of callbacks both are removed. -/
theorem removed_once_refuted :
    (run {} [.change (.add 4), .change (.add 4), .change (.add 5)]).bind
      (fun r => (call r [([.remove 4, .remove 4], 1)]).map (fun x => Spec.keys x.1)) = some [4, 5] ∧
    (run {} [.change (.add 4), .change (.add 4), .change (.add 5), .change (.remove 4), .change (.remove 4)]).map
      Spec.keys = some [5] := by decide +kernel

/-- A match added by the last callback is not called, one added by an earlier callback is. -/
theorem added_sometimes_called :
    (run {} [.change (.add 4)]).bind (fun r => (call r [([.add 7], 0), ([], 0)]).map (·.2)) = some [4] ∧
    (run {} [.change (.add 4), .change (.add 5)]).bind
      (fun r => (call r [([.add 7], 0), ([], 0), ([], 0)]).map (·.2)) = some [4, 5, 7] := by decide +kernel

end Verif.WpasMatch
