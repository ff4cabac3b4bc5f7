import Verif.Proof.MkdirRun
/-! # Creating directories (C134) -/
namespace Verif.Mkdir
open Verif.C
open Verif.Mkdir.Spec (Sound Starts Below Possible Added)

/-- **C134.** `shl_mkdir_p` and `shl_mkdir_p_prefix`, for every file system and every path: the call succeeds exactly
if the path is not empty, begins with the prefix, meets no file, and all that is missing may be made and lies below the
prefix.  After success exactly the missing directories of the way were added, with the mode that was asked for.  After
a failure the code is negative, and at most parents below the prefix were added; nothing is ever removed or changed. -/
theorem mkdir_exact (fs : FS) (h : Sound fs) (pre : Option (List Byte)) (path : List Byte) (mode : Nat) :
    ∃ r fs', mkdirP fs pre (some path) mode = (r, fs') ∧ Sound fs' ∧
      (Possible fs pre path → r = 0 ∧ Added fs fs' (fs.loc path) mode) ∧
      (¬ Possible fs pre path → r < 0 ∧ Spec.Some fs fs' pre (fs.loc path) mode) := by
  refine ⟨(mkdirP fs pre (some path) mode).1, (mkdirP fs pre (some path) mode).2, rfl, ?_⟩
  by_cases hst : ¬ Starts pre path
  · have hz : Str.pathStartswith (some path) pre = none := by
      cases hz : Str.pathStartswith (some path) pre with
      | none => rfl
      | some z => exact absurd ((starts_iff pre path).mp (by rw [hz]; rfl)) hst
    have e : mkdirP fs pre (some path) mode = (-20, fs) := by
      rw [mkdirP_eq]
      unfold mkdirParents
      rw [hz]
      rfl
    rw [e]
    exact ⟨h, fun hp => absurd hp.2.1 hst, fun _ => ⟨show (-20 : Int) < 0 by decide, rfl, rfl, fun _ => Or.inl rfl⟩⟩
  have hst : Starts pre path := Classical.not_not.mp hst
  by_cases hp : path = []
  · have e : mkdirP fs pre (some path) mode = (-ENOENT, fs) := by
      obtain ⟨z, hz⟩ := Option.isSome_iff_exists.mp ((starts_iff pre path).mpr hst)
      rw [mkdirP_eq]
      unfold mkdirParents
      rw [hz, hp]
      rfl
    rw [e]
    exact ⟨h, fun x => absurd hp x.1, fun _ => ⟨show -ENOENT < (0 : Int) by decide, rfl, rfl, fun _ => Or.inl rfl⟩⟩
  obtain ⟨s1, g1, n1, ok1⟩ := parents h (pre := pre) hp hst mode
  rw [mkdirP_eq]
  generalize hP : mkdirParents fs pre (some path) mode = P at *
  by_cases hneg : P.1 < 0
  · rw [if_pos hneg]
    refine ⟨s1, fun x => ?_, fun _ => ⟨hneg, g1.1, g1.2.1, fun q => ?_⟩⟩
    · have := (ok1 x).1; omega
    · rcases g1.2.2 q with e | ⟨⟨a, b, c⟩, e1, e2, e3⟩
      · exact Or.inl e
      · exact Or.inr ⟨a, b, e1, e2, adds_below (l := fs.loc path) ⟨a, Or.inl c⟩, e3⟩
  rw [if_neg hneg]
  have hloc : P.2.loc path = fs.loc path := by
    unfold FS.loc
    rw [g1.1]
  obtain ⟨s2, g2, r2⟩ := last_cases s1 hp mode
  rw [hloc] at g2 r2
  have gg : Grow (Adds fs pre (fs.loc path)) mode fs (last P.2 path mode).2 :=
    (g1.mono fun q hq => ⟨hq.1, Or.inl hq.2.2⟩).trans
      (g2.mono fun q hq => ⟨by rw [hq]; exact List.prefix_refl _, Or.inr hq⟩)
  refine ⟨s2, ?_, ?_⟩
  · intro hpos
    rcases r2 with ⟨e, hd⟩ | ⟨_, _, hbad⟩
    · refine ⟨e, gg.1, gg.2.1, fun q => ⟨?_, ?_⟩⟩
      · rintro ⟨hq, hn⟩
        obtain ⟨m, hm⟩ := above_dir s2 hq hd
        rcases gg.2.2 q with e | ⟨_, _, _, e⟩
        · rw [e, hn] at hm; cases hm
        · exact e
      · intro hq
        rcases gg.2.2 q with e | ⟨a, b, _, _⟩
        · exact e
        · exact absurd ⟨a.1, b⟩ hq
    · exfalso
      obtain ⟨_, hpar⟩ := ok1 hpos
      have hl := hpos.2.2 (fs.loc path) (List.prefix_refl _)
      rcases hbad with hf | ⟨hn, hx⟩
      · rcases g1.2.2 (fs.loc path) with e | ⟨⟨_, b, _⟩, _⟩
        · rw [e] at hf; exact hl.1 hf
        · exact b rfl
      · have hn0 : fs.node (fs.loc path) = none := by
          rcases g1.2.2 (fs.loc path) with e | ⟨⟨_, b, _⟩, _⟩
          · rw [← e]; exact hn
          · exact absurd rfl b
        rcases hx with hx | hx
        · refine hx ?_
          rcases hpar with hpar | hpar
          · rw [hpar]; rfl
          · by_cases h0 : fs.loc path = []
            · rw [h0]; rfl
            · rw [← List.dropLast_concat_getLast h0]
              exact walk_parent s1 hpar
        · rw [g1.2.1] at hx
          exact hx (hl.2 hn0).1
  · intro hnp
    rcases r2 with ⟨_, hd⟩ | ⟨e, efs, _⟩
    · exfalso
      refine hnp ⟨hp, hst, fun q hq => ?_⟩
      obtain ⟨a, b⟩ := gg.back (above_dir s2 hq hd)
      exact ⟨a, fun hn => ⟨(b hn).2, adds_below (b hn).1⟩⟩
    · refine ⟨e, ?_⟩
      rw [efs]
      refine ⟨g1.1, g1.2.1, fun q => ?_⟩
      rcases g1.2.2 q with e | ⟨⟨a, b, c⟩, e1, e2, e3⟩
      · exact Or.inl e
      · exact Or.inr ⟨a, b, e1, e2, adds_below (l := fs.loc path) ⟨a, Or.inl c⟩, e3⟩

/-- A file system for the examples: directories and files that exist, and places where nothing may be made. -/
def sample (dirs files denied : List Loc) : FS :=
  { node := fun q => if q ∈ dirs then some (.dir 493) else if q ∈ files then some .file else none
    cwd := []
    deny := fun q => if q ∈ denied then some 13 else none }

/-- The names of `/run/a/b` are made below `/run`. -/
example : (mkdirP (sample [[], [bytes "run"]] [] []) (some (bytes "/run")) (some (bytes "/run//a/b/")) 448).1 = 0 ∧
    ((mkdirP (sample [[], [bytes "run"]] [] []) (some (bytes "/run")) (some (bytes "/run//a/b/")) 448).2.node
      [bytes "run", bytes "a"] = some (.dir 448)) ∧
    ((mkdirP (sample [[], [bytes "run"]] [] []) (some (bytes "/run")) (some (bytes "/run//a/b/")) 448).2.node
      [bytes "run", bytes "a", bytes "b"] = some (.dir 448)) := by decide +kernel

/-- It is possible in the sense of the theorem, and not if `/run` is missing. -/
example : (mkdirP (sample [[]] [] []) (some (bytes "/run")) (some (bytes "/run/a/b")) 448).1 = -2 ∧
    (mkdirP (sample [[]] [] []) none (some (bytes "/run/a/b")) 448).1 = 0 ∧
    (mkdirP (sample [[], [bytes "run"]] [[bytes "run", bytes "a"]] []) none (some (bytes "/run/a/b")) 448).1 = -20 ∧
    (mkdirP (sample [[], [bytes "run"]] [[bytes "run", bytes "a"]] []) none (some (bytes "/run/a")) 448).1 = -17 ∧
    (mkdirP (sample [[], [bytes "run"]] [] [[bytes "run", bytes "a"]]) none (some (bytes "/run/a/b")) 448).1 = -13 := by
  decide +kernel

/-- **C134 (the prefix).** With a prefix no directory above or equal to it is ever made, except the path itself if it
is the prefix. -/
theorem prefix_never_made (fs : FS) (h : Sound fs) (p path : List Byte) (mode : Nat) (q : Loc)
    (hq : q <+: fs.loc p) (hne : q ≠ fs.loc path) : (mkdirP fs (some p) (some path) mode).2.node q = fs.node q := by
  obtain ⟨r, fs', e, _, h1, h2⟩ := mkdir_exact fs h (some p) path mode
  rw [e]
  by_cases hp : Possible fs (some p) path
  · obtain ⟨_, _, _, a⟩ := h1 hp
    refine (a q).2 ?_
    rintro ⟨b, c⟩
    rcases (((hp.2.2 q b).2 c).2 : ¬ q <+: fs.loc p ∨ q = fs.loc path) with x | x
    · exact x hq
    · exact hne x
  · obtain ⟨_, _, _, a⟩ := h2 hp
    rcases a q with e | ⟨_, _, _, _, x, _⟩
    · exact e
    · rcases (x : ¬ q <+: fs.loc p ∨ q = fs.loc path) with x | x
      · exact absurd hq x
      · exact absurd x hne

/-- Where the directory is there already, nothing stands in the way. -/
theorem possible_of_dir {fs : FS} (h : Sound fs) {pre : Option (List Byte)} {path : List Byte} (hp : path ≠ [])
    (hs : Starts pre path) (hd : ∃ m, fs.node (fs.loc path) = some (.dir m)) : Possible fs pre path := by
  refine ⟨hp, hs, fun q hq => ?_⟩
  obtain ⟨m, hm⟩ := above_dir h hq hd
  rw [hm]
  exact ⟨by simp, fun e => by cases e⟩

/-- **C134 (the daemon starts).** `miracle-wifid` makes `/run/miracle` (mode 0755) and `/run/miracle/wifi` (mode 0700)
below an existing `/run` and nothing else; it goes on exactly if both are directories then (and so, where the second
one was there already). -/
theorem startup_exact (fs : FS) (h : Sound fs) :
    ∃ r fs', startup fs = (r, fs') ∧ Sound fs' ∧
      (∀ q, q ≠ [bytes "run", bytes "miracle"] → q ≠ [bytes "run", bytes "miracle", bytes "wifi"] → fs'.node q = fs.node q) ∧
      (r = 0 ∨ r < 0) ∧
      ((∃ m, fs'.node [bytes "run", bytes "miracle", bytes "wifi"] = some (.dir m)) → r = 0) ∧
      (r = 0 → (∃ m, fs.node [bytes "run"] = some (.dir m)) ∧
        (fs'.node [bytes "run", bytes "miracle"] =
          if fs.node [bytes "run", bytes "miracle"] = none then some (.dir 0o755) else fs.node [bytes "run", bytes "miracle"]) ∧
        (∃ m, fs'.node [bytes "run", bytes "miracle"] = some (.dir m)) ∧
        (fs'.node [bytes "run", bytes "miracle", bytes "wifi"] =
          if fs.node [bytes "run", bytes "miracle", bytes "wifi"] = none then some (.dir 0o700)
          else fs.node [bytes "run", bytes "miracle", bytes "wifi"]) ∧
        ∃ m, fs'.node [bytes "run", bytes "miracle", bytes "wifi"] = some (.dir m)) := by
  have l1 : ∀ f : FS, f.loc (bytes "/run/miracle") = [bytes "run", bytes "miracle"] := fun f => by
    unfold FS.loc; rw [if_pos (by decide)]; decide
  have l2 : ∀ f : FS, f.loc (bytes "/run/miracle/wifi") = [bytes "run", bytes "miracle", bytes "wifi"] := fun f => by
    unfold FS.loc; rw [if_pos (by decide)]; decide
  have l0 : ∀ f : FS, f.loc (bytes "/run") = [bytes "run"] := fun f => by
    unfold FS.loc; rw [if_pos (by decide)]; decide
  obtain ⟨r1, f1, e1, s1, a1, b1⟩ := mkdir_exact fs h (some (bytes "/run")) (bytes "/run/miracle") 493
  have keep1 : ∀ q, q ≠ [bytes "run", bytes "miracle"] → f1.node q = fs.node q := by
    intro q hq
    by_cases hpre : q <+: fs.loc (bytes "/run")
    · have := prefix_never_made fs h (bytes "/run") (bytes "/run/miracle") 493 q hpre (by rw [l1]; exact hq)
      rw [e1] at this
      exact this
    by_cases hp : Possible fs (some (bytes "/run")) (bytes "/run/miracle")
    · refine ((a1 hp).2.2.2 q).2 ?_
      rintro ⟨x, _⟩
      rw [l1] at x
      rcases List.prefix_concat_iff.mp (show q <+: [bytes "run"] ++ [bytes "miracle"] from x) with y | y
      · exact hq y
      · exact hpre (by rw [l0]; exact y)
    · rcases (b1 hp).2.2.2 q with x | ⟨x, y, _⟩
      · exact x
      · rw [l1] at x
        rcases List.prefix_concat_iff.mp (show q <+: [bytes "run"] ++ [bytes "miracle"] from x) with z | z
        · exact absurd z hq
        · exact absurd (by rw [l0]; exact z) hpre
  unfold startup
  rw [e1]
  simp only
  have hsign1 : r1 = 0 ∨ r1 < 0 := by
    by_cases hp : Possible fs (some (bytes "/run")) (bytes "/run/miracle")
    · exact Or.inl (a1 hp).1
    · exact Or.inr (b1 hp).1
  by_cases hneg : r1 < 0
  · rw [if_pos hneg]
    refine ⟨_, _, rfl, s1, fun q x _ => keep1 q x, Or.inr hneg, fun hd => ?_, fun e => absurd hneg (by omega)⟩
    have hp : Possible fs (some (bytes "/run")) (bytes "/run/miracle") := by
      refine possible_of_dir h (by decide) ((starts_iff _ _).mp (by decide +kernel)) ?_
      obtain ⟨m, hm⟩ := hd
      rw [keep1 _ (by decide)] at hm
      rw [l1]
      exact above_dir h ⟨[bytes "wifi"], rfl⟩ ⟨m, hm⟩
    exact (a1 hp).1
  rw [if_neg hneg]
  have hp1 : Possible fs (some (bytes "/run")) (bytes "/run/miracle") := by
    by_cases hp : Possible fs (some (bytes "/run")) (bytes "/run/miracle")
    · exact hp
    · exact absurd (b1 hp).1 hneg
  obtain ⟨_, _, _, ad1⟩ := a1 hp1
  rw [l1] at ad1
  obtain ⟨r2, f2, e2, s2, a2, b2⟩ := mkdir_exact f1 s1 (some (bytes "/run/miracle")) (bytes "/run/miracle/wifi") 448
  have keep2 : ∀ q, q ≠ [bytes "run", bytes "miracle", bytes "wifi"] → f2.node q = f1.node q := by
    intro q hq
    by_cases hpre : q <+: f1.loc (bytes "/run/miracle")
    · have := prefix_never_made f1 s1 (bytes "/run/miracle") (bytes "/run/miracle/wifi") 448 q hpre (by rw [l2]; exact hq)
      rw [e2] at this
      exact this
    have hno : ¬ q <+: f1.loc (bytes "/run/miracle/wifi") := by
      intro x
      rw [l2] at x
      rcases List.prefix_concat_iff.mp (show q <+: [bytes "run", bytes "miracle"] ++ [bytes "wifi"] from x) with y | y
      · exact hq y
      · exact hpre (by rw [l1]; exact y)
    by_cases hp : Possible f1 (some (bytes "/run/miracle")) (bytes "/run/miracle/wifi")
    · exact ((a2 hp).2.2.2 q).2 fun x => hno x.1
    · rcases (b2 hp).2.2.2 q with x | ⟨x, _⟩
      · exact x
      · exact absurd x hno
  rw [e2]
  refine ⟨r2, f2, rfl, s2, fun q x y => (keep2 q y).trans (keep1 q x), ?_, fun hd => ?_, fun hr => ?_⟩
  · by_cases hp : Possible f1 (some (bytes "/run/miracle")) (bytes "/run/miracle/wifi")
    · exact Or.inl (a2 hp).1
    · exact Or.inr (b2 hp).1
  · by_cases hp : Possible f1 (some (bytes "/run/miracle")) (bytes "/run/miracle/wifi")
    · exact (a2 hp).1
    · exfalso
      refine hp (possible_of_dir s1 (by decide) ((starts_iff _ _).mp (by decide +kernel)) ?_)
      obtain ⟨m, hm⟩ := hd
      rcases (b2 hp).2.2.2 [bytes "run", bytes "miracle", bytes "wifi"] with x | ⟨_, x, _⟩
      · rw [l2, ← x]; exact ⟨m, hm⟩
      · exact absurd (l2 f1).symm x
  have hp2 : Possible f1 (some (bytes "/run/miracle")) (bytes "/run/miracle/wifi") := by
    by_cases hp : Possible f1 (some (bytes "/run/miracle")) (bytes "/run/miracle/wifi")
    · exact hp
    · exact absurd (b2 hp).1 (by omega)
  obtain ⟨_, _, _, ad2⟩ := a2 hp2
  rw [l2] at ad2
  have hw : f2.node [bytes "run", bytes "miracle", bytes "wifi"] ≠ none ∧
      f2.node [bytes "run", bytes "miracle", bytes "wifi"] ≠ some .file := by
    by_cases hn : f1.node [bytes "run", bytes "miracle", bytes "wifi"] = none
    · rw [(ad2 _).1 ⟨List.prefix_refl _, hn⟩]; simp
    · rw [(ad2 _).2 (by simp [hn])]
      exact ⟨hn, (hp2.2.2 _ (by rw [l2]; exact List.prefix_refl _)).1⟩
  have hwd : ∃ m, f2.node [bytes "run", bytes "miracle", bytes "wifi"] = some (.dir m) := by
    cases hk : f2.node [bytes "run", bytes "miracle", bytes "wifi"] with
    | none => exact absurd hk hw.1
    | some k => cases k with
      | file => exact absurd hk hw.2
      | dir m => exact ⟨m, rfl⟩
  have hmd : ∃ m, f2.node [bytes "run", bytes "miracle"] = some (.dir m) :=
    above_dir s2 ⟨[bytes "wifi"], rfl⟩ hwd
  have hrd : ∃ m, f2.node [bytes "run"] = some (.dir m) := above_dir s2 ⟨[bytes "miracle", bytes "wifi"], rfl⟩ hwd
  refine ⟨?_, ?_, hmd, ?_, hwd⟩
  · rw [keep2 _ (by decide), keep1 _ (by decide)] at hrd
    exact hrd
  · rw [keep2 _ (by decide)]
    by_cases hn : fs.node [bytes "run", bytes "miracle"] = none
    · rw [if_pos hn]; exact (ad1 _).1 ⟨List.prefix_refl _, hn⟩
    · rw [if_neg hn]; exact (ad1 _).2 fun x => hn x.2
  · have hk := keep1 [bytes "run", bytes "miracle", bytes "wifi"] (by decide)
    rw [← hk]
    by_cases hn : f1.node [bytes "run", bytes "miracle", bytes "wifi"] = none
    · rw [if_pos hn]; exact (ad2 _).1 ⟨List.prefix_refl _, hn⟩
    · rw [if_neg hn]; exact (ad2 _).2 fun x => hn x.2

/-- A fresh `/run`. -/
example : (startup (sample [[], [bytes "run"]] [] [])).1 = 0 ∧
    (startup (sample [[], [bytes "run"]] [] [])).2.node [bytes "run", bytes "miracle", bytes "wifi"] = some (.dir 448) ∧
    (startup (sample [[]] [] [])).1 = -2 := by decide +kernel

/-- The sample file systems are sound. -/
example : Sound (sample [[], [bytes "run"]] [] [[bytes "run", bytes "x"]]) := by
  have hd : ∀ q, (sample [[], [bytes "run"]] [] [[bytes "run", bytes "x"]]).node q ≠ none → q = [] ∨ q = [bytes "run"] := by
    intro q hq
    by_cases h : q ∈ [[], [bytes "run"]]
    · simpa using h
    · exact absurd (by simp only [sample, if_neg h, List.not_mem_nil, if_false]) hq
  refine ⟨⟨493, by decide⟩, ?_, ⟨493, by decide⟩, ?_⟩
  · intro q c hq
    rcases hd _ hq with h | h
    · simp at h
    · have : q = [] := by
        cases q with
        | nil => rfl
        | cons a t => have := congrArg List.length h; simp at this
      rw [this]
      exact ⟨493, by decide⟩
  · intro q e he
    by_cases h : q ∈ [[bytes "run", bytes "x"]]
    · simp only [sample, if_pos h, Option.some.injEq] at he
      omega
    · simp only [sample, if_neg h, reduceCtorEq] at he

end Verif.Mkdir
