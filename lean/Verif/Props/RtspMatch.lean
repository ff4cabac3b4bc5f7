import Verif.Proof.RtspMatch
/-!
# C139: what is not a reply goes to the matches of an RTSP bus

What is missing from the full claim: a match removed by an earlier callback is still called for the same message (`removed_still_called`), removing one of two equal matches twice within a callback removes one
only (`removed_once_refuted`), and a message need not come to an end: callbacks that add matches are followed by these (`adding_never_ends`).
-/
namespace Verif.RtspMatch.Props
open Verif.WpasMatch (Reg MOp Idle)
open Verif.WpasMatch.Spec (keys added allOps gone survivors)
open Verif.RtspMatch

/-- **C139.** A message is given to the matches in the order in which they were added, those added meanwhile last, to each at most once: the matches called are the first ones of the list. All but the last one called
returned 0; the return value is that of the last one, and if it is 0 (or nobody was called) there is no match left that was not called. -/
theorem dispatch_order_partial (ops : List Op) (r r' : Reg) (b : List (List MOp × Int)) (c : List Nat) (rv : Int)
    (_hr : run {} ops = some r) (h : call r b = some (r', c, rv)) :
    c = (keys r ++ added (allOps (b.take c.length))).take c.length ∧
      (∀ j, j + 1 < c.length → (b[j]?).map (·.2) = some 0) ∧
      (c ≠ [] → (b[c.length - 1]?).map (·.2) = some rv) ∧ (c = [] → rv = 0) ∧
      (rv = 0 → c = keys r ++ added (allOps (b.take c.length))) := by
  unfold call at h
  simp only [Option.map_eq_some_iff, Prod.mk.injEq] at h
  obtain ⟨⟨r1, c1, v1⟩, h1, -, h2⟩ := h
  cases h2
  obtain ⟨a1, a2, a3, a4, a5, a6, a7, a8⟩ := loop_calls b _ r1 0 0 rv c rfl (Nat.zero_le _) h1
  rw [List.drop_zero] at a3
  have a3' : c = (keys r ++ added (allOps (b.take c.length))).take c.length := by rw [a2] at a3; exact a3
  refine ⟨a3', a4, a7, a6, fun h0 => ?_⟩
  rcases a8 with ⟨h8, _⟩ | h8
  · exact absurd h0 h8
  · have e : c.length = (keys r ++ added (allOps (b.take c.length))).length := by
      have := h8
      rw [a2] at this
      simpa [keys] using this
    exact a3'.trans (List.take_of_length_le (Nat.le_of_eq e.symm))

/-- **C139.** If callbacks leave the list alone, the message goes to all matches up to the first that does not return 0, whose value is returned. -/
theorem dispatch_until (ops : List Op) (r : Reg) (rets : List Int) (hr : run {} ops = some r) (hl : rets.length = r.list.length) :
    call r (rets.map fun v => ([], v)) = some (r, (keys r).take ((rets.takeWhile (· = 0)).length + 1), (rets.find? (· ≠ 0)).getD 0) := by
  have hi : Idle r := idle_run ops ⟨rfl, by simp⟩ hr
  have key : ∀ (rets : List Int) (r : Reg) (i : Nat), i + rets.length = r.list.length →
      loop r i 0 (rets.map fun v => ([], v)) = some (r, ((keys r).drop i).take ((rets.takeWhile (· = 0)).length + 1), (rets.find? (· ≠ 0)).getD 0) := by
    intro rets
    induction rets with
    | nil =>
      intro r i h
      have : r.list.length = i := by simpa using h.symm
      rw [List.map_nil]
      unfold loop
      rw [if_neg (by omega), List.drop_eq_nil_of_le (by simp [keys, this])]
      rfl
    | cons v t ih =>
      intro r i h
      have hlt : i < r.list.length := by rw [List.length_cons] at h; omega
      have hl' : i < (keys r).length := by simpa [keys] using hlt
      rw [List.map_cons]
      unfold loop
      rw [List.getElem?_eq_getElem hlt]
      dsimp only
      rw [List.foldl_nil]
      have hd : (keys r).drop i = r.list[i].key :: (keys r).drop (i + 1) := by
        rw [List.drop_eq_getElem_cons hl']
        simp [keys]
      by_cases hv : v = 0
      · subst hv
        rw [if_neg (by simp), ih r (i + 1) (by rw [List.length_cons] at h; omega), hd]
        simp
      · rw [if_pos hv, hd]
        simp [hv]
  unfold call
  rw [key rets { r with calling := true } 0 (by simpa using hl)]
  have hf : r.list.filter (fun m => !m.removed) = r.list := by
    rw [List.filter_eq_self]; intro m hm; simp [hi.2 m hm]
  simp only [Option.map_some, List.drop_zero, hf, keys]
  rw [← hi.1]

/-- **C139.** Removing takes out the match added last of those that are equal; the others stay in order. -/
theorem remove_last (ops : List Op) (r : Reg) (k : Nat) (hr : run {} ops = some r) :
    keys (WpasMatch.remove r k) = survivors [k] (keys r) := by
  have hi : Idle r := idle_run ops ⟨rfl, by simp⟩ hr
  unfold keys WpasMatch.remove
  simp only [hi.1, Bool.false_eq_true, if_false]
  exact WpasMatch.keys_eraseLast k r.list

/-- **C139.** If callbacks remove but do not add matches, then after the dispatch, for each key removed by a callback, the last match with it is gone, and all others are there in order. -/
theorem dispatch_removes (ops : List Op) (r r' : Reg) (b : List (List MOp × Int)) (c : List Nat) (rv : Int)
    (hr : run {} ops = some r) (h : call r b = some (r', c, rv)) (hn : added (allOps (b.take c.length)) = []) :
    keys r' = survivors (gone (allOps (b.take c.length))) (keys r) := by
  have hi : Idle r := idle_run ops ⟨rfl, by simp⟩ hr
  unfold call at h
  simp only [Option.map_eq_some_iff, Prod.mk.injEq] at h
  obtain ⟨⟨r1, c1, v1⟩, h1, rfl, h2⟩ := h
  cases h2
  obtain ⟨a1, a2, a3, a4, a5, a6⟩ := loop_calls b _ r1 0 0 rv c rfl (Nat.zero_le _) h1
  have hm : WpasMatch.Marked ((gone (allOps (b.take c.length))).reverse ++ []) r1.list := by
    rw [a5]
    exact WpasMatch.Marked.foldl _ hn rfl (WpasMatch.Marked.nil_of hi.2)
  have := hm.filter
  show (r1.list.filter _).map _ = _
  rw [this, show r1.list.map (·.key) = keys r1 from rfl, a2, hn, List.append_nil, List.append_nil]
  exact WpasMatch.survivors_congr (fun k => List.mem_reverse) _

/-- **C139.** After a dispatch nothing is marked for removal any more: the next message sees none of the matches removed before. -/
theorem dispatch_cleans (r r' : Reg) (b : List (List MOp × Int)) (x : List Nat × Int) (h : call r b = some (r', x)) :
    r'.calling = false ∧ ∀ m ∈ r'.list, m.removed = false := idle_call h

-- three matches, the second takes the message; the first removes itself and adds another, all four are called
example : (run {} [.change (.add 4), .change (.add 5), .change (.add 6)]).bind (fun r => (call r [([], 0), ([], 1)]).map (·.2)) = some ([4, 5], 1) ∧
    (run {} [.change (.add 4), .change (.add 5), .change (.add 6)]).bind
      (fun r => (call r [([.remove 4], 0), ([], 0), ([.add 7], 0), ([], -5)]).map (fun x => (keys x.1, x.2))) = some ([5, 6, 7], [4, 5, 6, 7], -5) := by decide +kernel

/-- **C139, negation.** A match that an earlier callback has removed is called nevertheless. -/
theorem removed_still_called : (run {} [.change (.add 4), .change (.add 5)]).bind
    (fun r => (call r [([.remove 5], 0), ([], 0)]).map (fun x => (keys x.1, x.2.1))) = some ([4], [4, 5]) := by decide +kernel

/-- **C139, negation.** Two equal matches, removed twice by a callback: one stays. Outside of callbacks both are removed. -/
theorem removed_once_refuted :
    (run {} [.change (.add 4), .change (.add 4), .change (.add 5)]).bind
      (fun r => (call r [([.remove 4, .remove 4], 1)]).map (fun x => keys x.1)) = some [4, 5] ∧
    (run {} [.change (.add 4), .change (.add 4), .change (.add 5), .change (.remove 4), .change (.remove 4)]).map keys = some [5] := by decide +kernel

/-- **C139, negation.** If every callback adds a match (even if it removes itself) and returns 0, one message keeps the bus busy for ever: however many callbacks have returned, another one is due. -/
theorem adding_never_ends (r : Reg) (hr : r.list ≠ []) (k : Nat) (more : List MOp) (b : List (List MOp × Int)) (hb : ∀ x ∈ b, x = (.add k :: more, 0)) : call r b = none := by
  have key : ∀ (b : List (List MOp × Int)) (r : Reg) (i : Nat), r.calling = true → i < r.list.length → (∀ x ∈ b, x = (.add k :: more, 0)) → loop r i 0 b = none := by
    intro b
    induction b with
    | nil => intro r i _ h _; unfold loop; rw [if_pos h]
    | cons x t ih =>
      intro r i hc h hx
      have hx0 := hx x List.mem_cons_self
      subst hx0
      unfold loop
      rw [List.getElem?_eq_getElem h]
      dsimp only
      rw [if_neg (by simp), Option.map_eq_none_iff]
      refine ih _ _ (by rw [WpasMatch.foldl_calling]; exact hc) ?_ (fun y hy => hx y (List.mem_cons_of_mem _ hy))
      have := congrArg List.length (WpasMatch.keys_foldl (.add k :: more) r hc)
      simp [keys, added] at this
      rw [List.foldl_cons, this]
      omega
  unfold call
  rw [key b { r with calling := true } 0 rfl (List.length_pos_iff.mpr hr) hb]
  rfl

example : ({ list := [{ key := 4 }] } : Reg).list ≠ [] ∧ ∀ x ∈ List.replicate 50 ([MOp.add 4, .remove 4], (0 : Int)), x = (.add 4 :: [.remove 4], 0) := by decide

end Verif.RtspMatch.Props
