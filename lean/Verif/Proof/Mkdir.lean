import Verif.Spec.Mkdir
import Verif.Props.Str
/-! # Helper lemmas for creating directories -/
namespace Verif.Mkdir
open Verif.C
open Verif.Mkdir.Spec (Sound)

/-! ## Paths -/

theorem pieces_app (a b : List Byte) : Str.Spec.pieces (· = ch '/') (a ++ ch '/' :: b) =
    Str.Spec.pieces (· = ch '/') a ++ Str.Spec.pieces (· = ch '/') b := by
  induction a with
  | nil => simp [Str.Spec.pieces]
  | cons c a ih =>
    rw [List.cons_append, Str.Spec.pieces, Str.Spec.pieces, ih]
    by_cases h : c = ch '/'
    · simp [h]
    · have hne := Str.pieces_ne_nil (· = ch '/') a
      cases hp : Str.Spec.pieces (· = ch '/') a with
      | nil => exact absurd hp hne
      | cons p ps => simp [h]

theorem comps_app (a b : List Byte) : Str.Spec.comps (a ++ ch '/' :: b) = Str.Spec.comps a ++ Str.Spec.comps b := by
  unfold Str.Spec.comps Str.Spec.tokens
  rw [pieces_app, List.filter_append]

theorem comps_nil : Str.Spec.comps [] = [] := by decide

theorem comps_slash (b : List Byte) : Str.Spec.comps (ch '/' :: b) = Str.Spec.comps b := by
  have := comps_app [] b
  rw [comps_nil] at this
  exact this

theorem comps_slashes (s b : List Byte) (h : ∀ c ∈ s, c = ch '/') : Str.Spec.comps (s ++ b) = Str.Spec.comps b := by
  induction s with
  | nil => rfl
  | cons c s ih =>
    rw [List.cons_append, h c (by simp), comps_slash, ih fun x hx => h x (by simp [hx])]

theorem pieces_word (w : List Byte) (h : ch '/' ∉ w) : Str.Spec.pieces (· = ch '/') w = [w] := by
  induction w with
  | nil => rfl
  | cons c w ih =>
    have hc : c ≠ ch '/' := fun e => h (by simp [e])
    rw [Str.Spec.pieces, ih fun hm => h (by simp [hm])]
    simp [hc]

theorem comps_word (w : List Byte) (h : ch '/' ∉ w) (hne : w ≠ []) : Str.Spec.comps w = [w] := by
  unfold Str.Spec.comps Str.Spec.tokens
  rw [pieces_word w h]
  simp [hne]

theorem mem_takeWhile {f : Byte → Bool} : ∀ {l : List Byte} {c : Byte}, c ∈ l.takeWhile f → f c = true
  | [], _, h => by simp at h
  | a :: l, c, h => by
    by_cases ha : f a = true
    · rw [List.takeWhile_cons_of_pos ha] at h
      rcases List.mem_cons.mp h with rfl | h
      · exact ha
      · exact mem_takeWhile h
    · rw [List.takeWhile_cons_of_neg ha] at h
      simp at h

/-- The parts of what `p` points to. -/
theorem cut (rest : List Byte) (hh : rest.head? ≠ some (ch '/')) (hne : rest ≠ []) :
    let comp := rest.takeWhile (· ≠ ch '/')
    let after := rest.dropWhile (· ≠ ch '/')
    let slashes := after.takeWhile (· = ch '/')
    let next := after.dropWhile (· = ch '/')
    rest = comp ++ (slashes ++ next) ∧ comp ≠ [] ∧ ch '/' ∉ comp ∧ (∀ c ∈ slashes, c = ch '/') ∧
      next.head? ≠ some (ch '/') ∧ (next ≠ [] → slashes ≠ []) := by
  intro comp after slashes next
  have h1 : rest = comp ++ after := (List.takeWhile_append_dropWhile).symm
  have h2 : after = slashes ++ next := (List.takeWhile_append_dropWhile).symm
  have hc : ch '/' ∉ comp := by
    intro hm
    have := mem_takeWhile hm
    simp at this
  have hs : ∀ c ∈ slashes, c = ch '/' := by
    intro c hm
    have := mem_takeWhile hm
    simpa using this
  refine ⟨by rw [← h2]; exact h1, ?_, hc, hs, ?_, ?_⟩
  · cases hr : rest with
    | nil => exact absurd hr hne
    | cons c t =>
      rw [hr] at hh
      have hc : c ≠ ch '/' := by simpa using hh
      show rest.takeWhile _ ≠ []
      rw [hr, List.takeWhile_cons_of_pos (by simpa using hc)]
      simp
  · intro e
    have : ∀ l : List Byte, (l.dropWhile (· = ch '/')).head? ≠ some (ch '/') := by
      intro l
      induction l with
      | nil => simp
      | cons c l ih =>
        by_cases hc : c = ch '/'
        · rw [List.dropWhile_cons_of_pos (by simpa using hc)]; exact ih
        · rw [List.dropWhile_cons_of_neg (by simpa using hc)]; simpa using hc
    exact this after e
  · intro hn hs0
    have hafter : ∀ l : List Byte, (l.dropWhile (· ≠ ch '/')).head? = none ∨
        (l.dropWhile (· ≠ ch '/')).head? = some (ch '/') := by
      intro l
      induction l with
      | nil => simp
      | cons c l ih =>
        by_cases hc : c = ch '/'
        · rw [List.dropWhile_cons_of_neg (by simpa using hc)]; right; simpa using hc
        · rw [List.dropWhile_cons_of_pos (by simpa using hc)]; exact ih
    rw [hs0, List.nil_append] at h2
    rcases hafter rest with e | e
    · have : after = [] := by
        cases ha : after with
        | nil => rfl
        | cons c t => rw [show rest.dropWhile (· ≠ ch '/') = after from rfl, ha] at e; cases e
      rw [← h2] at hn
      exact hn this
    · have : after ≠ [] := fun h0 => by rw [show rest.dropWhile (· ≠ ch '/') = after from rfl, h0] at e; cases e
      cases ha : after with
      | nil => exact this ha
      | cons c t =>
        rw [show rest.dropWhile (· ≠ ch '/') = after from rfl, ha] at e
        have hc : c = ch '/' := by simpa using e
        have : slashes = c :: (t.takeWhile (· = ch '/')) := by
          show after.takeWhile _ = _
          rw [ha, List.takeWhile_cons_of_pos (by simpa using hc)]
        rw [this] at hs0
        cases hs0

theorem comps_ne {l : List Byte} (h : l ≠ []) (hh : l.head? ≠ some (ch '/')) : ∃ c cs, Str.Spec.comps l = c :: cs := by
  obtain ⟨e, hc, hn, hs, hx, hy⟩ := cut l hh h
  by_cases h0 : (l.dropWhile (· ≠ ch '/')).dropWhile (· = ch '/') = []
  · rw [h0, List.append_nil] at e
    cases hsl : (l.dropWhile (· ≠ ch '/')).takeWhile (· = ch '/') with
    | nil =>
      rw [hsl, List.append_nil] at e
      exact ⟨_, [], by rw [e]; exact comps_word _ hn hc⟩
    | cons a s =>
      rw [hsl] at e
      have := hs a (by rw [hsl]; simp)
      subst this
      exact ⟨_, _, by rw [e, comps_app, comps_word _ hn hc]; rfl⟩
  · cases hsl : (l.dropWhile (· ≠ ch '/')).takeWhile (· = ch '/') with
    | nil => exact absurd hsl (hy h0)
    | cons a s =>
      rw [hsl] at e
      have := hs a (by rw [hsl]; simp)
      subst this
      exact ⟨_, _, by rw [e, List.cons_append, comps_app, comps_word _ hn hc]; rfl⟩

theorem comps_rest {rest : List Byte} (hh : rest.head? ≠ some (ch '/')) (hne : rest ≠ []) :
    Str.Spec.comps rest = rest.takeWhile (· ≠ ch '/') ::
      Str.Spec.comps ((rest.dropWhile (· ≠ ch '/')).dropWhile (· = ch '/')) := by
  obtain ⟨e, hc, hn, hs, hx, hy⟩ := cut rest hh hne
  generalize hcomp : rest.takeWhile (· ≠ ch '/') = comp at *
  generalize hnext : (rest.dropWhile (· ≠ ch '/')).dropWhile (· = ch '/') = next at *
  generalize hsl : (rest.dropWhile (· ≠ ch '/')).takeWhile (· = ch '/') = sl at *
  cases sl with
  | nil =>
    have : next = [] := by
      by_cases h : next = []
      · exact h
      · exact absurd rfl (hy h)
    subst this
    rw [e, List.append_nil, List.append_nil, comps_word _ hn hc, comps_nil]
  | cons a s =>
    have := hs a (by simp)
    subst this
    rw [e, List.cons_append, comps_app, comps_word _ hn hc, comps_slashes _ _ fun c hc => hs c (by simp [hc])]
    rfl

/-! ## The file system -/

/-- What may have been added. -/
def Grow (S : Loc → Prop) (mode : Nat) (fs fs' : FS) : Prop :=
  fs'.cwd = fs.cwd ∧ fs'.deny = fs.deny ∧
  ∀ q, fs'.node q = fs.node q ∨ (S q ∧ fs.node q = none ∧ fs.deny q = none ∧ fs'.node q = some (.dir mode))

theorem Grow.refl (S : Loc → Prop) (mode : Nat) (fs : FS) : Grow S mode fs fs := ⟨rfl, rfl, fun _ => Or.inl rfl⟩

theorem Grow.trans {S : Loc → Prop} {mode : Nat} {a b c : FS} (h : Grow S mode a b) (h' : Grow S mode b c) :
    Grow S mode a c := by
  refine ⟨h'.1.trans h.1, h'.2.1.trans h.2.1, fun q => ?_⟩
  rcases h'.2.2 q with e | ⟨s, e1, e2, e3⟩
  · rcases h.2.2 q with f | ⟨s, f1, f2, f3⟩
    · exact Or.inl (e.trans f)
    · exact Or.inr ⟨s, f1, f2, e.trans f3⟩
  · rcases h.2.2 q with f | ⟨_, f1, f2, f3⟩
    · exact Or.inr ⟨s, f ▸ e1, h.2.1 ▸ e2, e3⟩
    · rw [f3] at e1; cases e1

theorem Grow.mono {S T : Loc → Prop} {mode : Nat} {a b : FS} (h : Grow S mode a b) (hst : ∀ q, S q → T q) :
    Grow T mode a b :=
  ⟨h.1, h.2.1, fun q => (h.2.2 q).imp id fun ⟨s, r⟩ => ⟨hst q s, r⟩⟩

theorem Grow.dir {S : Loc → Prop} {mode : Nat} {a b : FS} (h : Grow S mode a b) {q : Loc} (hd : ∃ m, a.node q = some (.dir m)) :
    ∃ m, b.node q = some (.dir m) := by
  rcases h.2.2 q with e | ⟨_, e, _, _⟩
  · rw [e]; exact hd
  · obtain ⟨m, hm⟩ := hd; rw [hm] at e; cases e

theorem Grow.back {S : Loc → Prop} {mode : Nat} {a b : FS} (h : Grow S mode a b) {q : Loc} (hd : ∃ m, b.node q = some (.dir m)) :
    a.node q ≠ some .file ∧ (a.node q = none → S q ∧ a.deny q = none) := by
  rcases h.2.2 q with e | ⟨s, e, e1, _⟩
  · rw [e] at hd
    obtain ⟨m, hm⟩ := hd
    rw [hm]
    exact ⟨by simp, by simp⟩
  · rw [e]; exact ⟨by simp, fun _ => ⟨s, e1⟩⟩

/-- All that is above something existing is a directory. -/
theorem up_dirs {fs : FS} (h : Sound fs) : ∀ (t q : Loc), fs.node (q ++ t) ≠ none → t ≠ [] → ∃ m, fs.node q = some (.dir m) := by
  intro t
  induction t with
  | nil => intro q _ hn; exact absurd rfl hn
  | cons c t ih =>
    intro q hq _
    by_cases ht : t = []
    · subst ht; exact h.up q c hq
    · have := ih (q ++ [c]) (by simpa using hq) ht
      obtain ⟨m, hm⟩ := this
      exact h.up q c (by rw [hm]; simp)

theorem above_dir {fs : FS} (h : Sound fs) {q l : Loc} (hq : q <+: l) (hl : ∃ m, fs.node l = some (.dir m)) :
    ∃ m, fs.node q = some (.dir m) := by
  obtain ⟨t, rfl⟩ := hq
  by_cases ht : t = []
  · subst ht; simpa using hl
  · obtain ⟨m, hm⟩ := hl
    exact up_dirs h t q (by rw [hm]; simp) ht

/-- Resolution succeeds exactly if all that is above is a directory. -/
theorem walk_zero {fs : FS} : ∀ (t d : Loc), walk fs d t = 0 ∨ walk fs d t = -ENOENT ∨ walk fs d t = -20 := by
  intro t
  induction t with
  | nil => intro d; exact Or.inl rfl
  | cons c t ih =>
    intro d
    unfold walk
    cases fs.node d with
    | none => exact Or.inr (Or.inl rfl)
    | some k => cases k with
      | file => exact Or.inr (Or.inr rfl)
      | dir m => exact ih _

theorem walk_ok {fs : FS} : ∀ (t d : Loc), (∀ k, k < t.length → ∃ m, fs.node (d ++ t.take k) = some (.dir m)) → walk fs d t = 0 := by
  intro t
  induction t with
  | nil => intro d _; rfl
  | cons c t ih =>
    intro d h
    unfold walk
    obtain ⟨m, hm⟩ := h 0 (by simp)
    rw [List.take_zero, List.append_nil] at hm
    rw [hm]
    refine ih _ fun k hk => ?_
    have := h (k + 1) (by simp; omega)
    simpa using this

theorem walk_dirs {fs : FS} : ∀ (t d : Loc), walk fs d t = 0 → ∀ k, k < t.length → ∃ m, fs.node (d ++ t.take k) = some (.dir m) := by
  intro t
  induction t with
  | nil => intro d _ k hk; simp at hk
  | cons c t ih =>
    intro d h k hk
    unfold walk at h
    cases hd : fs.node d with
    | none => rw [hd] at h; exact absurd (show -ENOENT = (0 : Int) from h) (by decide)
    | some x => cases x with
      | file => rw [hd] at h; exact absurd (show (-20 : Int) = 0 from h) (by decide)
      | dir m =>
        rw [hd] at h
        cases k with
        | zero => exact ⟨m, by simpa using hd⟩
        | succ k =>
          have := ih _ h k (by simpa using hk)
          simpa using this

theorem walk_parent {fs : FS} (h : Sound fs) {q : Loc} {c : List Byte} (hd : ∃ m, fs.node q = some (.dir m)) :
    walk fs [] (q ++ [c]) = 0 := by
  refine walk_ok _ _ fun k hk => ?_
  rw [List.nil_append]
  have hk' : k ≤ q.length := by simp at hk; omega
  rw [List.take_append_of_le_length hk']
  exact above_dir h (List.take_prefix k q) hd

theorem walk_exists {fs : FS} (h : Sound fs) {q : Loc} (hq : fs.node q ≠ none) : walk fs [] q = 0 := by
  refine walk_ok _ _ fun k hk => ?_
  rw [List.nil_append]
  refine up_dirs h (q.drop k) (q.take k) (by rw [List.take_append_drop]; exact hq) ?_
  intro e
  have := congrArg List.length e
  simp at this
  omega

/-- What making one directory does. -/
theorem make_cases {fs : FS} (h : Sound fs) (q : Loc) (mode : Nat) :
    (fs.make q mode = (-17, fs) ∧ fs.node q ≠ none) ∨
    ((fs.make q mode).2 = fs ∧ (fs.make q mode).1 < 0 ∧ (fs.make q mode).1 ≠ -17 ∧ fs.node q = none ∧
      (walk fs [] q ≠ 0 ∨ fs.deny q ≠ none)) ∨
    ((fs.make q mode).1 = 0 ∧ fs.node q = none ∧ fs.deny q = none ∧ walk fs [] q = 0 ∧
      Grow (· = q) mode fs (fs.make q mode).2 ∧ Sound (fs.make q mode).2 ∧
      (fs.make q mode).2.node q = some (.dir mode) ∧ ∀ x, x ≠ q → (fs.make q mode).2.node x = fs.node x) := by
  unfold FS.make
  by_cases hw : walk fs [] q < 0
  · rw [if_pos hw]
    right; left
    refine ⟨rfl, hw, ?_, ?_, Or.inl (by omega)⟩
    · show walk fs [] q ≠ -17
      rcases walk_zero (fs := fs) q [] with e | e | e <;> rw [e] <;> decide
    · rcases Option.eq_none_or_eq_some (fs.node q) with e | ⟨k, e⟩
      · exact e
      · rw [walk_exists h (by rw [e]; simp)] at hw; exact absurd hw (by decide)
  rw [if_neg hw]
  have hw0 : walk fs [] q = 0 := by
    rcases walk_zero (fs := fs) q [] with e | e | e
    · exact e
    · rw [e] at hw; exact absurd (by decide) hw
    · rw [e] at hw; exact absurd (by decide) hw
  cases hq : fs.node q with
  | some k => exact Or.inl ⟨rfl, by simp⟩
  | none =>
    cases hd : fs.deny q with
    | some e =>
      obtain ⟨e1, e2⟩ := h.err q e hd
      refine Or.inr (Or.inl ⟨rfl, ?_, ?_, rfl, Or.inr (by simp)⟩)
      · show -(e : Int) < 0; omega
      · show -(e : Int) ≠ -17; omega
    | none =>
      refine Or.inr (Or.inr ⟨rfl, rfl, rfl, hw0, ⟨rfl, rfl, ?_⟩, ?_, by simp, ?_⟩)
      · intro x
        by_cases hx : x = q
        · subst hx; exact Or.inr ⟨rfl, hq, hd, by simp⟩
        · exact Or.inl (by simp [hx])
      · have keep : ∀ x, (∃ m, fs.node x = some (.dir m)) → ∃ m, (if x = q then some (Kind.dir mode) else fs.node x) = some (.dir m) := by
          intro x hx
          by_cases e : x = q
          · exact ⟨mode, by simp [e]⟩
          · rw [if_neg e]; exact hx
        refine ⟨keep _ h.root, ?_, keep _ h.cwd, h.err⟩
        intro x c hx
        by_cases e : x ++ [c] = q
        · refine keep _ ?_
          have := walk_dirs _ _ hw0 x.length (by rw [← e]; simp)
          rw [← e, List.nil_append, List.take_left'] at this
          · exact this
          · rfl
        · simp only [e, if_false] at hx
          exact keep _ (h.up x c hx)
      · intro x hx
        simp [hx]

/-- The loop over the names. -/
def lloop (skip : Loc → Bool) (mode : Nat) : Loc → Loc → FS → Int × FS
  | _, [], fs => (0, fs)
  | d, c :: cs, fs =>
    if cs = [] then (0, fs)
    else if skip (d ++ [c]) then lloop skip mode (d ++ [c]) cs fs
    else
      let r := fs.make (d ++ [c]) mode
      if r.1 < 0 ∧ r.1 ≠ -17 then (r.1, r.2) else lloop skip mode (d ++ [c]) cs r.2

theorem make_cwd (fs : FS) (q : Loc) (mode : Nat) : (fs.make q mode).2.cwd = fs.cwd := by
  unfold FS.make
  split
  · rfl
  · split
    · rfl
    · split <;> rfl

/-- The base of relative or absolute paths. -/
def baseOf (fs : FS) (path : List Byte) : Loc := if path.head? = some (ch '/') then [] else fs.cwd

theorem loc_base (fs : FS) (path : List Byte) : fs.loc path = baseOf fs path ++ Str.Spec.comps path := by
  unfold FS.loc baseOf
  split <;> simp

/-- Which places are skipped. -/
def skipOf (fs : FS) (pre : Option (List Byte)) (q : Loc) : Bool :=
  match pre with
  | none => false
  | some p => decide (q <+: fs.loc p)

theorem loop_eq (pre : Option (List Byte)) (path : List Byte) (hpre : Spec.Starts pre path) (mode : Nat) (fs0 : FS) :
    ∀ (n : Nat) (done rest : List Byte) (fs : FS), path = done ++ rest → rest.length < n →
      rest.head? ≠ some (ch '/') → (done = [] ∨ done.getLast? = some (ch '/')) → fs.cwd = fs0.cwd →
      loop pre mode n done rest fs =
        lloop (skipOf fs0 pre) mode (baseOf fs0 path ++ Str.Spec.comps done) (Str.Spec.comps rest) fs := by
  intro n
  induction n with
  | zero => intro done rest fs _ h; simp at h
  | succ n ih =>
    intro done rest fs hp hn hh hd hcwd
    rw [loop]
    by_cases hr : rest = []
    · subst hr
      simp [comps_nil, lloop]
    obtain ⟨e, hc, hnc, hs, hx, hy⟩ := cut rest hh hr
    rw [comps_rest hh hr]
    simp only
    generalize hcomp : rest.takeWhile (· ≠ ch '/') = comp at *
    generalize hnext : (rest.dropWhile (· ≠ ch '/')).dropWhile (· = ch '/') = next at *
    generalize hsl : (rest.dropWhile (· ≠ ch '/')).takeWhile (· = ch '/') = sl at *
    by_cases h0 : next = []
    · rw [if_pos h0, lloop, if_pos (by rw [h0]; exact comps_nil)]
    obtain ⟨c1, cs1, hcs⟩ := comps_ne h0 hx
    have hnil : ¬ Str.Spec.comps next = [] := by rw [hcs]; simp
    rw [if_neg h0, lloop]
    have hsne := hy h0
    have hct : Str.Spec.comps (done ++ comp) = Str.Spec.comps done ++ [comp] := by
      rcases hd with rfl | hd
      · rw [List.nil_append, comps_word _ hnc hc, comps_nil]; rfl
      · obtain ⟨ys, hys⟩ := List.getLast?_eq_some_iff.mp hd
        have hcd : Str.Spec.comps done = Str.Spec.comps ys := by
          rw [hys, comps_app, comps_nil, List.append_nil]
        rw [hcd, hys, List.append_assoc]
        show Str.Spec.comps (ys ++ ch '/' :: comp) = _
        rw [comps_app, comps_word _ hnc hc]
    have hts : Str.Spec.comps (done ++ comp ++ sl) = Str.Spec.comps done ++ [comp] := by
      cases sl with
      | nil => exact absurd rfl hsne
      | cons a s =>
        have := hs a (by simp)
        subst this
        have hss : Str.Spec.comps s = [] := by
          have := comps_slashes s [] fun c hc => hs c (by simp [hc])
          rw [List.append_nil, comps_nil] at this
          exact this
        rw [comps_app, hct, hss, List.append_nil]
    have hlast : (done ++ comp ++ sl).getLast? = some (ch '/') := by
      rw [List.getLast?_append]
      obtain ⟨z, hz⟩ : ∃ z, sl.getLast? = some z := by
        cases hq : sl.getLast? with
        | none => exact absurd (List.getLast?_eq_none_iff.mp hq) hsne
        | some z => exact ⟨z, rfl⟩
      rw [hz, hs z (List.mem_of_getLast? hz)]
      rfl
    have hpath : path = done ++ comp ++ sl ++ next := by
      rw [hp]
      conv => lhs; rw [e]
      simp
    have hlen : next.length < n := by
      have h1 : rest.length = comp.length + (sl.length + next.length) := by
        conv => lhs; rw [e]
        simp
      have h2 : 0 < comp.length := List.length_pos_iff.mpr hc
      omega
    have hih := fun (f : FS) (hf : f.cwd = fs0.cwd) =>
      ih (done ++ comp ++ sl) next f hpath hlen hx (Or.inr hlast) hf
    rw [hts, ← List.append_assoc] at hih
    have hhead : (done ++ comp).head? = path.head? := by
      rw [hpath]
      cases hdc : done ++ comp with
      | nil =>
        have := congrArg List.length hdc
        have h2 : 0 < comp.length := List.length_pos_iff.mpr hc
        simp at this
        exact absurd this.2 hc
      | cons z zs => rfl
    have hlt : fs0.loc (done ++ comp) = baseOf fs0 path ++ Str.Spec.comps done ++ [comp] := by
      rw [loc_base, hct]
      unfold baseOf
      rw [hhead, List.append_assoc]
    have hskip : (pre.isSome && (Str.pathStartswith pre (some (done ++ comp))).isSome) =
        skipOf fs0 pre (baseOf fs0 path ++ Str.Spec.comps done ++ [comp]) := by
      cases pre with
      | none => rfl
      | some p =>
        have hi := Str.path_startswith_iff p (done ++ comp)
        rw [Bool.eq_iff_iff]
        simp only [Option.isSome_some, Bool.true_and, skipOf, decide_eq_true_eq]
        rw [hi, loc_base, hct, List.append_assoc]
        have hb : baseOf fs0 p = baseOf fs0 path := by
          unfold baseOf
          by_cases ha : path.head? = some (ch '/')
          · rw [if_pos ha, if_pos (hpre.1.mp ha)]
          · rw [if_neg ha, if_neg fun x => ha (hpre.1.mpr x)]
        rw [hb, List.prefix_append_right_inj]
        refine ⟨fun x => x.2, fun x => ⟨?_, x⟩⟩
        unfold Str.Spec.absolute
        rw [hhead]
        exact hpre.1.symm
    by_cases hsk : skipOf fs0 pre (baseOf fs0 path ++ Str.Spec.comps done ++ [comp]) = true
    · rw [hskip, if_pos hsk, if_neg hnil, if_pos hsk, hih fs hcwd]
    · rw [hskip, if_neg hsk, if_neg hnil, if_neg hsk]
      have hmk : fs.mkdir (done ++ comp) mode = fs.make (baseOf fs0 path ++ Str.Spec.comps done ++ [comp]) mode := by
        unfold FS.mkdir
        rw [if_neg (by
          intro h
          have := congrArg List.length h
          simp at this
          exact hc this.2), ← hlt]
        unfold FS.loc
        rw [hcwd]
      rw [hmk]
      by_cases hneg : (fs.make (baseOf fs0 path ++ Str.Spec.comps done ++ [comp]) mode).1 < 0 ∧
          (fs.make (baseOf fs0 path ++ Str.Spec.comps done ++ [comp]) mode).1 ≠ -17
      · rw [if_pos hneg, if_pos hneg]
      · rw [if_neg hneg, if_neg hneg, hih _ (by rw [make_cwd]; exact hcwd)]

end Verif.Mkdir
