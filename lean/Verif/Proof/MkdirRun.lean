import Verif.Proof.Mkdir
/-! # Helper lemmas: the whole of `shl__mkdir_p` -/
namespace Verif.Mkdir
open Verif.C
open Verif.Mkdir.Spec (Sound Starts Below Possible Added)

/-- What the loop may add. -/
def Ways (skip : Loc → Bool) (l : Loc) (q : Loc) : Prop := q <+: l ∧ q ≠ l ∧ skip q = false

theorem lloop_grow (skip : Loc → Bool) (mode : Nat) : ∀ (cs d : Loc) (fs : FS), Sound fs →
    Sound (lloop skip mode d cs fs).2 ∧ Grow (Ways skip (d ++ cs)) mode fs (lloop skip mode d cs fs).2 ∧
      (lloop skip mode d cs fs).1 ≤ 0 := by
  intro cs
  induction cs with
  | nil => intro d fs h; exact ⟨h, Grow.refl _ _ _, Int.le_refl _⟩
  | cons c cs ih =>
    intro d fs h
    rw [lloop]
    by_cases h0 : cs = []
    · rw [if_pos h0]; exact ⟨h, Grow.refl _ _ _, Int.le_refl _⟩
    rw [if_neg h0]
    have hi := ih (d ++ [c])
    rw [List.append_assoc, List.singleton_append] at hi
    by_cases hs : skip (d ++ [c]) = true
    · rw [if_pos hs]; exact hi fs h
    rw [if_neg hs]
    simp only
    have hw : Ways skip (d ++ c :: cs) (d ++ [c]) := by
      refine ⟨⟨cs, by simp⟩, ?_, by simpa using hs⟩
      intro e
      have := congrArg List.length e
      simp at this
      exact h0 this
    rcases make_cases h (d ++ [c]) mode with ⟨e, _⟩ | ⟨e, e1, e2, _⟩ | ⟨e, _, _, _, g, s, _⟩
    · rw [e, if_neg (by simp)]
      exact hi fs h
    · rw [if_pos ⟨e1, e2⟩]
      simp only
      rw [e]
      exact ⟨h, Grow.refl _ _ _, by omega⟩
    · rw [if_neg (by rw [e]; simp)]
      obtain ⟨a, b, x⟩ := hi _ s
      exact ⟨a, (g.mono fun q hq => by rw [hq]; exact hw).trans b, x⟩

theorem lloop_ok (skip : Loc → Bool) (mode : Nat) : ∀ (cs d : Loc) (fs : FS), Sound fs → cs ≠ [] →
    (∃ m, fs.node d = some (.dir m)) →
    (∀ q, d <+: q → q <+: d ++ cs → fs.node q ≠ some .file) →
    (∀ q, d <+: q → q <+: d ++ cs → q ≠ d ++ cs → fs.node q = none → fs.deny q = none ∧ skip q = false) →
    (lloop skip mode d cs fs).1 = 0 ∧ ∃ m, (lloop skip mode d cs fs).2.node (d ++ cs).dropLast = some (.dir m) := by
  intro cs
  induction cs with
  | nil => intro d fs _ hne; exact absurd rfl hne
  | cons c cs ih =>
    intro d fs h _ hd hf hg
    rw [lloop]
    by_cases h0 : cs = []
    · rw [if_pos h0, h0]
      refine ⟨rfl, ?_⟩
      rw [List.dropLast_append_of_ne_nil (by simp)]
      simpa using hd
    rw [if_neg h0]
    have hpre : d <+: d ++ [c] := List.prefix_append _ _
    have hpre' : d ++ [c] <+: d ++ c :: cs := ⟨cs, by simp⟩
    have hne : d ++ [c] ≠ d ++ c :: cs := by
      intro e
      have := congrArg List.length e
      simp at this
      exact h0 this
    have hi := ih (d ++ [c])
    rw [List.append_assoc, List.singleton_append] at hi
    have hdir : fs.node (d ++ [c]) ≠ none → ∃ m, fs.node (d ++ [c]) = some (.dir m) := by
      intro hn
      cases hk : fs.node (d ++ [c]) with
      | none => exact absurd hk hn
      | some k => cases k with
        | file => exact absurd hk (hf _ hpre hpre')
        | dir m => exact ⟨m, rfl⟩
    by_cases hs : skip (d ++ [c]) = true
    · rw [if_pos hs]
      refine hi fs h h0 (hdir fun hn => ?_) (fun q a b => hf q (hpre.trans a) b) (fun q a b => hg q (hpre.trans a) b)
      have := (hg _ hpre hpre' hne hn).2
      rw [hs] at this
      cases this
    rw [if_neg hs]
    simp only
    rcases make_cases h (d ++ [c]) mode with ⟨e, hn⟩ | ⟨e, e1, e2, hn, hx⟩ | ⟨e, hn, _, _, g, s, hnew, hold⟩
    · rw [e, if_neg (by simp)]
      exact hi fs h h0 (hdir hn) (fun q a b => hf q (hpre.trans a) b) (fun q a b => hg q (hpre.trans a) b)
    · exfalso
      rcases hx with hx | hx
      · exact hx (walk_parent h hd)
      · exact hx (hg _ hpre hpre' hne hn).1
    · rw [if_neg (by rw [e]; simp)]
      refine hi _ s h0 ⟨mode, hnew⟩ ?_ ?_
      · intro q a b
        by_cases hq : q = d ++ [c]
        · rw [hq, hnew]; simp
        · rw [hold q hq]; exact hf q (hpre.trans a) b
      · intro q a b cne hnone
        by_cases hq : q = d ++ [c]
        · rw [hq, hnew] at hnone; cases hnone
        · rw [hold q hq] at hnone
          rw [g.2.1]
          exact hg q (hpre.trans a) b cne hnone

/-- `shl__is_dir`. -/
theorem isDir_cases {fs : FS} (h : Sound fs) {path : List Byte} (hp : path ≠ []) :
    (isDir fs path > 0 ∧ ∃ m, fs.node (fs.loc path) = some (.dir m)) ∨
    (isDir fs path = 0 ∧ fs.node (fs.loc path) = some .file) ∨
    (isDir fs path < 0 ∧ ∀ m, fs.node (fs.loc path) ≠ some (.dir m)) := by
  unfold isDir
  rw [if_neg hp]
  by_cases hw : walk fs [] (fs.loc path) < 0
  · rw [if_pos hw]
    refine Or.inr (Or.inr ⟨hw, fun m hm => ?_⟩)
    rw [walk_exists h (by rw [hm]; simp)] at hw
    exact absurd hw (by decide)
  rw [if_neg hw]
  cases hn : fs.node (fs.loc path) with
  | none => exact Or.inr (Or.inr ⟨show -ENOENT < (0 : Int) by decide, by simp⟩)
  | some k =>
    cases k with
    | dir m => exact Or.inl ⟨show (1 : Int) > 0 by decide, m, rfl⟩
    | file =>
      by_cases hl : path.getLast? = some (ch '/')
      · simp only [hl, if_true]
        exact Or.inr (Or.inr ⟨by decide, by simp⟩)
      · simp only [hl, if_false]
        exact Or.inr (Or.inl ⟨trivial, trivial⟩)

/-- The last step of `shl__mkdir_p`. -/
def last (fs1 : FS) (p : List Byte) (mode : Nat) : Int × FS :=
  let m := fs1.mkdir p mode
  if m.1 < 0 then
    if m.1 ≠ -17 then (m.1, m.2)
    else if isDir m.2 p ≤ 0 then (errnoAfter m.2 p, m.2)
    else (0, m.2)
  else (0, m.2)

theorem mkdirP_eq (fs : FS) (pre : Option (List Byte)) (p : List Byte) (mode : Nat) :
    mkdirP fs pre (some p) mode =
      if (mkdirParents fs pre (some p) mode).1 < 0 then mkdirParents fs pre (some p) mode
      else last (mkdirParents fs pre (some p) mode).2 p mode := rfl

theorem last_cases {fs : FS} (h : Sound fs) {path : List Byte} (hp : path ≠ []) (mode : Nat) :
    Sound (last fs path mode).2 ∧ Grow (· = fs.loc path) mode fs (last fs path mode).2 ∧
    (((last fs path mode).1 = 0 ∧ ∃ m, (last fs path mode).2.node (fs.loc path) = some (.dir m)) ∨
     ((last fs path mode).1 < 0 ∧ (last fs path mode).2 = fs ∧
      (fs.node (fs.loc path) = some .file ∨ (fs.node (fs.loc path) = none ∧ (walk fs [] (fs.loc path) ≠ 0 ∨ fs.deny (fs.loc path) ≠ none))))) := by
  unfold last FS.mkdir
  rw [if_neg hp]
  simp only
  rcases make_cases h (fs.loc path) mode with ⟨e, hn⟩ | ⟨e, e1, e2, hn, hx⟩ | ⟨e, hn, hd, hw, g, s, hnew, hold⟩
  · rw [e]
    simp only [ne_eq, not_true_eq_false, if_false]
    rw [if_pos (by decide)]
    rcases isDir_cases h hp with ⟨a, b⟩ | ⟨a, b⟩ | ⟨a, b⟩
    · rw [if_neg (by omega)]
      exact ⟨h, Grow.refl _ _ _, Or.inl ⟨rfl, b⟩⟩
    · rw [if_pos (by omega)]
      refine ⟨h, Grow.refl _ _ _, Or.inr ⟨?_, rfl, Or.inl b⟩⟩
      show errnoAfter fs path < 0
      unfold errnoAfter
      rw [if_neg (by omega)]
      decide
    · rw [if_pos (by omega)]
      refine ⟨h, Grow.refl _ _ _, Or.inr ⟨?_, rfl, Or.inl ?_⟩⟩
      · show errnoAfter fs path < 0
        unfold errnoAfter
        rw [if_pos a]
        exact a
      · cases hk : fs.node (fs.loc path) with
        | none => exact absurd hk hn
        | some k => cases k with
          | file => rfl
          | dir m => exact absurd hk (b m)
  · rw [if_pos e1, if_pos e2]
    simp only
    rw [e]
    exact ⟨h, Grow.refl _ _ _, Or.inr ⟨e1, rfl, Or.inr ⟨hn, hx⟩⟩⟩
  · rw [if_neg (by omega)]
    exact ⟨s, g, Or.inl ⟨rfl, mode, hnew⟩⟩

theorem parentText_some {path p : List Byte} (h : parentText path = some p) :
    ∃ w, path = p ++ ch '/' :: w ∧ ch '/' ∉ w ∧ p ≠ [] := by
  unfold parentText at h
  by_cases hm : ch '/' ∉ path
  · rw [if_pos hm] at h; cases h
  rw [if_neg hm] at h
  simp only at h
  by_cases he : (path.reverse.dropWhile (· ≠ ch '/')).drop 1 = []
  · rw [if_pos he] at h; cases h
  rw [if_neg he] at h
  simp only [Option.some.injEq] at h
  have hsplit : ∀ l : List Byte, ch '/' ∈ l → ∃ a b, l = a ++ ch '/' :: b ∧ ch '/' ∉ a ∧
      (l.dropWhile (· ≠ ch '/')).drop 1 = b := by
    intro l
    induction l with
    | nil => intro h; simp at h
    | cons c l ih =>
      intro hin
      by_cases hc : c = ch '/'
      · refine ⟨[], l, by rw [hc]; rfl, by simp, ?_⟩
        rw [List.dropWhile_cons_of_neg (by simpa using hc)]
        rfl
      · obtain ⟨a, b, e1, e2, e3⟩ := ih (by
          rcases List.mem_cons.mp hin with e | e
          · exact absurd e.symm hc
          · exact e)
        refine ⟨c :: a, b, by rw [e1]; rfl, ?_, ?_⟩
        · intro hx
          rcases List.mem_cons.mp hx with e | e
          · exact hc e.symm
          · exact e2 e
        · rw [List.dropWhile_cons_of_pos (by simpa using hc)]; exact e3
  obtain ⟨a, b, e1, e2, e3⟩ := hsplit path.reverse (by simpa using hm)
  refine ⟨a.reverse, ?_, by simpa using e2, ?_⟩
  · have := congrArg List.reverse e1
    rw [List.reverse_reverse] at this
    rw [this, ← h, e3]
    simp
  · rw [← h]
    simpa using he

theorem parentText_none {path : List Byte} (h : parentText path = none) :
    ∃ w, ch '/' ∉ w ∧ (path = w ∨ path = ch '/' :: w) := by
  by_cases hm : ch '/' ∉ path
  · exact ⟨path, hm, Or.inl rfl⟩
  have hm' : ch '/' ∈ path := by simpa using hm
  unfold parentText at h
  rw [if_neg hm] at h
  simp only at h
  by_cases he : (path.reverse.dropWhile (· ≠ ch '/')).drop 1 = []
  · cases path with
    | nil => simp at hm'
    | cons c t =>
      by_cases ht : ch '/' ∈ t
      · exfalso
        have key : ∀ (a : List Byte) (z : Byte), ch '/' ∈ a → ((a ++ [z]).dropWhile (· ≠ ch '/')).drop 1 ≠ [] := by
          intro a
          induction a with
          | nil => intro z h; simp at h
          | cons x a ih =>
            intro z hin
            by_cases hx : x = ch '/'
            · rw [List.cons_append, List.dropWhile_cons_of_neg (by simpa using hx)]
              simp
            · rw [List.cons_append, List.dropWhile_cons_of_pos (by simpa using hx)]
              refine ih z ?_
              rcases List.mem_cons.mp hin with e | e
              · exact absurd e.symm hx
              · exact e
        rw [List.reverse_cons] at he
        exact key t.reverse c (by simpa using ht) he
      · refine ⟨t, ht, Or.inr ?_⟩
        rcases List.mem_cons.mp hm' with e | e
        · rw [← e]
        · exact absurd e ht
  · rw [if_neg he] at h
    cases h

theorem starts_iff (pre : Option (List Byte)) (path : List Byte) :
    (Str.pathStartswith (some path) pre).isSome ↔ Starts pre path := by
  cases pre with
  | none => simp [Str.pathStartswith, Starts]
  | some p => exact Str.path_startswith_iff path p

/-- What the whole may add. -/
def Adds (fs : FS) (pre : Option (List Byte)) (l q : Loc) : Prop := q <+: l ∧ (skipOf fs pre q = false ∨ q = l)

theorem adds_below {fs : FS} {pre : Option (List Byte)} {l q : Loc} (h : Adds fs pre l q) : Below fs pre l q := by
  unfold Below
  cases pre with
  | none => trivial
  | some p =>
    rcases h.2 with h | h
    · left
      simpa [skipOf] using h
    · exact Or.inr h

theorem base_dir {fs : FS} (h : Sound fs) (path : List Byte) : ∃ m, fs.node (baseOf fs path) = some (.dir m) := by
  unfold baseOf
  split
  · exact h.root
  · exact h.cwd

/-- The parents: they are sound, add only what they may, and succeed if it is possible. -/
theorem parents {fs : FS} (h : Sound fs) {pre : Option (List Byte)} {path : List Byte} (hp : path ≠ [])
    (hst : Starts pre path) (mode : Nat) :
    Sound (mkdirParents fs pre (some path) mode).2 ∧
    Grow (Ways (skipOf fs pre) (fs.loc path)) mode fs (mkdirParents fs pre (some path) mode).2 ∧
    (mkdirParents fs pre (some path) mode).1 ≤ 0 ∧
    (Possible fs pre path → (mkdirParents fs pre (some path) mode).1 = 0 ∧
      (fs.loc path = [] ∨ ∃ m, (mkdirParents fs pre (some path) mode).2.node (fs.loc path).dropLast = some (.dir m))) := by
  obtain ⟨z, hz⟩ := Option.isSome_iff_exists.mp ((starts_iff pre path).mpr hst)
  unfold mkdirParents
  rw [hz]
  simp only
  cases hpt : parentText path with
  | none =>
    refine ⟨h, Grow.refl _ _ _, Int.le_refl _, fun _ => ⟨rfl, ?_⟩⟩
    obtain ⟨w, hw, e⟩ := parentText_none hpt
    have hc : Str.Spec.comps path = Str.Spec.comps w := by
      rcases e with e | e
      · rw [e]
      · rw [e, comps_slash]
    rw [loc_base, hc]
    by_cases hw0 : w = []
    · subst hw0
      rcases e with e | e
      · exact absurd e hp
      · left
        rw [comps_nil, e]
        rfl
    · right
      rw [comps_word w hw hw0, List.dropLast_concat]
      exact base_dir h path
  | some p =>
    obtain ⟨w, hw, hnw, hpne⟩ := parentText_some hpt
    have hhead : p.head? = path.head? := by
      rw [hw]
      cases p with
      | nil => exact absurd rfl hpne
      | cons a t => rfl
    have hcp : Str.Spec.comps path = Str.Spec.comps p ++ Str.Spec.comps w := by rw [hw, comps_app]
    have hlp : fs.loc path = fs.loc p ++ Str.Spec.comps w := by
      rw [loc_base, loc_base, hcp]
      unfold baseOf
      rw [hhead, List.append_assoc]
    simp only
    rcases isDir_cases h hpne with ⟨a, b⟩ | ⟨a, b⟩ | ⟨a, b⟩
    · rw [if_pos a]
      refine ⟨h, Grow.refl _ _ _, Int.le_refl _, fun _ => ⟨rfl, ?_⟩⟩
      by_cases hw0 : w = []
      · subst hw0
        rw [comps_nil, List.append_nil] at hlp
        rw [hlp]
        by_cases h0 : fs.loc p = []
        · exact Or.inl h0
        · right
          exact above_dir h (List.dropLast_prefix _) b
      · right
        rw [hlp, comps_word w hnw hw0, List.dropLast_concat]
        exact b
    · rw [if_neg (by omega), if_pos a]
      refine ⟨h, Grow.refl _ _ _, show (-20 : Int) ≤ 0 by decide, fun hpos => ?_⟩
      exact absurd b (hpos.2.2 _ (by rw [hlp]; exact List.prefix_append _ _)).1
    · rw [if_neg (by omega), if_neg (by omega)]
      have hs : ∀ c ∈ path.takeWhile (· = ch '/'), c = ch '/' := fun c hm => by simpa using mem_takeWhile hm
      have hcut : path = path.takeWhile (· = ch '/') ++ path.drop (path.takeWhile (· = ch '/')).length := by
        conv => lhs; rw [← List.takeWhile_append_dropWhile (p := (· = ch '/')) (l := path)]
        congr 1
        conv => rhs; arg 2; rw [← List.takeWhile_append_dropWhile (p := (· = ch '/')) (l := path)]
        rw [List.drop_left']
        rfl
      have hdrop : path.drop (path.takeWhile (· = ch '/')).length = path.dropWhile (· = ch '/') := by
        have e1 := hcut
        conv at e1 => lhs; rw [← List.takeWhile_append_dropWhile (p := (· = ch '/')) (l := path)]
        exact (List.append_cancel_left e1).symm
      have hh : (path.drop (path.takeWhile (· = ch '/')).length).head? ≠ some (ch '/') := by
        rw [hdrop]
        have : ∀ l : List Byte, (l.dropWhile (· = ch '/')).head? ≠ some (ch '/') := by
          intro l
          induction l with
          | nil => simp
          | cons c l ih =>
            by_cases hc : c = ch '/'
            · rw [List.dropWhile_cons_of_pos (by simpa using hc)]; exact ih
            · rw [List.dropWhile_cons_of_neg (by simpa using hc)]; simpa using hc
        exact this path
      generalize hS : path.takeWhile (· = ch '/') = S at *
      generalize hR : path.drop S.length = R at *
      have hcS : Str.Spec.comps S = [] := by
        have := comps_slashes S [] hs
        rw [List.append_nil, comps_nil] at this
        exact this
      have hcR : Str.Spec.comps path = Str.Spec.comps R := by rw [hcut, comps_slashes _ _ hs]
      have hdone : S = [] ∨ S.getLast? = some (ch '/') := by
        by_cases h0 : S = []
        · exact Or.inl h0
        · right
          cases hq : S.getLast? with
          | none => exact absurd (List.getLast?_eq_none_iff.mp hq) h0
          | some y => rw [hs y (List.mem_of_getLast? hq)]
      have hle : R.length < path.length + 1 := by
        rw [← hR, List.length_drop]; omega
      rw [loop_eq pre path hst mode fs (path.length + 1) S R fs hcut hle hh hdone rfl, hcS, List.append_nil, ← hcR]
      obtain ⟨g1, g2, g3⟩ := lloop_grow (skipOf fs pre) mode (Str.Spec.comps path) (baseOf fs path) fs h
      rw [← loc_base] at g2
      refine ⟨g1, g2, g3, fun hpos => ?_⟩
      by_cases hne : Str.Spec.comps path = []
      · rw [hne]
        refine ⟨rfl, ?_⟩
        rw [loc_base, hne, List.append_nil]
        by_cases h0 : baseOf fs path = []
        · exact Or.inl h0
        · exact Or.inr (above_dir h (List.dropLast_prefix _) (base_dir h path))
      · have hl := loc_base fs path
        have := lloop_ok (skipOf fs pre) mode (Str.Spec.comps path) (baseOf fs path) fs h hne (base_dir h path)
          (fun q _ b => (hpos.2.2 q (by rw [hl]; exact b)).1)
          (fun q _ b cne hnone => by
            obtain ⟨x, y⟩ := (hpos.2.2 q (by rw [hl]; exact b)).2 hnone
            refine ⟨x, ?_⟩
            unfold Below at y
            cases pre with
            | none => rfl
            | some pr =>
              rcases y with y | y
              · simpa [skipOf] using y
              · rw [hl] at y; exact absurd y cne)
        rw [← hl] at this
        exact ⟨this.1, Or.inr this.2⟩

end Verif.Mkdir
