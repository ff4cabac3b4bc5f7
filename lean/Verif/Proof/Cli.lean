import Verif.Spec.Cli
/-! # Lemmas about the command line -/
namespace Verif.Cli
open Verif.C

theorem hidden_iff {σ : Type} (rl : Bool) (c : Cmd σ) : hidden rl c = true ↔ ¬ usable rl c := by
  unfold hidden usable
  cases rl <;> cases h : c.cli <;> simp

theorem toU32_of {i : Int} (h0 : 0 ≤ i) (h1 : i < W32) : (toU32 i : Int) = i := by
  unfold toU32
  rw [Int.emod_eq_of_lt h0 h1]
  omega

theorem legal_iff {σ : Type} (c : Cmd σ) (n : Nat) : legal c n ↔ (c.cmp = .equal → (n : Int) = c.argc) ∧
    (c.cmp = .more → c.argc ≤ (n : Int)) ∧ (c.cmp = .less → (n : Int) ≤ c.argc) := by
  unfold legal
  split <;> rename_i h <;> simp [h]

theorem doLoop_eq {σ : Type} (print : List Byte → σ → σ) (rl : Bool) (all : List (Cmd σ)) (cmd : List Byte)
    (args : List (List Byte)) (s : σ) (hn : args.length < W32) (cs : List (Cmd σ))
    (hc : ∀ c ∈ cs, 0 ≤ c.argc ∧ c.argc < W32) :
    doLoop print rl all cmd args s cs = match chosen rl cs cmd with
      | none => if cmd = bytes "help" then help print rl all 40 s else (-EAGAIN, s)
      | some c =>
        if legal c args.length then
          match c.fn with
          | some f => (if (f args s).1 = -EAGAIN then -EINVAL else (f args s).1, (f args s).2)
          | none => if cmd = bytes "help" then help print rl all 40 s else (-EAGAIN, s)
        else (-EINVAL, print (complaint c) s) := by
  induction cs with
  | nil => rfl
  | cons c cs ih =>
    have ih := ih (fun x hx => hc x (List.mem_cons_of_mem _ hx))
    have e : doLoop print rl all cmd args s (c :: cs) =
        if cmd ≠ c.cmd then doLoop print rl all cmd args s cs
        else if hidden rl c then doLoop print rl all cmd args s cs
        else
          let n := args.length % W32
          if c.cmp = .equal ∧ n ≠ toU32 c.argc then (-EINVAL, print (bytes "Invalid number of arguments\n") s)
          else if c.cmp = .more ∧ n < toU32 c.argc then (-EINVAL, print (bytes "too few arguments\n") s)
          else if c.cmp = .less ∧ n > toU32 c.argc then (-EINVAL, print (bytes "too many arguments\n") s)
          else
            match c.fn with
            | some f =>
              let r := f args s
              (if r.1 = -EAGAIN then -EINVAL else r.1, r.2)
            | none => if cmd = bytes "help" then help print rl all 40 s else (-EAGAIN, s) := rfl
    rw [e]
    by_cases h1 : cmd = c.cmd
    · by_cases h2 : usable rl c
      · have hh : ¬ hidden rl c = true := by rw [hidden_iff]; exact fun x => x h2
        have ec : chosen rl (c :: cs) cmd = some c := by
          unfold chosen; rw [List.find?_cons_of_pos]; simp [h1, h2]
        rw [ec, if_neg (by simp [h1]), if_neg hh]
        have hu := toU32_of (hc c (List.mem_cons_self ..)).1 (hc c (List.mem_cons_self ..)).2
        simp only [Nat.mod_eq_of_lt hn]
        by_cases hl : legal c args.length
        · rw [if_pos hl]
          rw [legal_iff] at hl
          rw [if_neg (fun x => by have := hl.1 x.1; omega), if_neg (fun x => by have := hl.2.1 x.1; omega),
            if_neg (fun x => by have := hl.2.2 x.1; omega)]
        · rw [if_neg hl]
          rw [legal_iff] at hl
          cases hcmp : c.cmp with
          | equal =>
            rw [if_pos ⟨rfl, fun x => hl ⟨fun _ => by omega, by simp [hcmp], by simp [hcmp]⟩⟩]
            simp only [complaint, hcmp]
          | more =>
            rw [if_neg (by simp), if_pos ⟨rfl, Decidable.byContradiction fun x =>
              hl ⟨by simp [hcmp], fun _ => by omega, by simp [hcmp]⟩⟩]
            simp only [complaint, hcmp]
          | less =>
            rw [if_neg (by simp), if_neg (by simp), if_pos ⟨rfl, Decidable.byContradiction fun x =>
              hl ⟨by simp [hcmp], by simp [hcmp], fun _ => by omega⟩⟩]
            simp only [complaint, hcmp]
      · have ec : chosen rl (c :: cs) cmd = chosen rl cs cmd := by
          unfold chosen; rw [List.find?_cons_of_neg]; simp [h2]
        rw [ec, if_neg (by simp [h1]), if_pos ((hidden_iff rl c).mpr h2), ih]
    · have ec : chosen rl (c :: cs) cmd = chosen rl cs cmd := by
        unfold chosen; rw [List.find?_cons_of_neg]; simp [h1]
      rw [ec, if_pos h1, ih]

theorem helpLoop_eq {σ : Type} (print : List Byte → σ → σ) (rl : Bool) (w : Int) (cs : List (Cmd σ)) (s : σ) :
    helpLoop print rl w cs s = (shownIn rl cs).foldl (fun s c => print (helpLine w c) s) s := by
  induction cs generalizing s with
  | nil => rfl
  | cons c cs ih =>
    have e : helpLoop print rl w (c :: cs) s = if c.desc = none then helpLoop print rl w cs s
      else if hidden rl c then helpLoop print rl w cs s
      else helpLoop print rl w cs (print (helpLine w c) s) := rfl
    rw [e]
    unfold shownIn at ih ⊢
    by_cases h1 : c.desc = none
    · rw [if_pos h1, List.filter_cons_of_neg (by simp [h1]), ih]
    · by_cases h2 : usable rl c
      · have hh : ¬ hidden rl c = true := by rw [hidden_iff]; exact fun x => x h2
        rw [if_neg h1, if_neg hh, List.filter_cons_of_pos (by simp [h1, h2]), ih]; rfl
      · rw [if_neg h1, if_pos ((hidden_iff rl c).mpr h2), List.filter_cons_of_neg (by simp [h2]), ih]

/-! ### Generators -/

theorem pick_eq (text : List Byte) (names : List (List Byte)) (idx cnt : Nat) (h : cnt ≤ idx) :
    pick text idx names cnt = (names.filter (fun n => text.isPrefixOf n))[idx - cnt]? := by
  induction names generalizing cnt with
  | nil => simp [pick]
  | cons n ns ih =>
    unfold pick
    by_cases hp : text.isPrefixOf n = true
    · rw [if_pos hp, List.filter_cons_of_pos (by simpa using hp)]
      by_cases hc : cnt = idx
      · rw [if_pos hc, hc]; simp
      · rw [if_neg hc, ih (cnt + 1) (by omega)]
        have : idx - cnt = (idx - (cnt + 1)) + 1 := by omega
        rw [this, List.getElem?_cons_succ]
    · rw [if_neg hp, List.filter_cons_of_neg (by simpa using hp), ih cnt h]

theorem collectPick_from (names : List (List Byte)) (text : List Byte) (fuel idx : Nat) :
    collectPick names text fuel idx = ((names.filter (fun n => text.isPrefixOf n)).drop idx).take fuel := by
  induction fuel generalizing idx with
  | zero => simp [collectPick]
  | succ k ih =>
    have e : collectPick names text (k + 1) idx = match pick text idx names 0 with
      | none => []
      | some n => n :: collectPick names text k (idx + 1) := rfl
    rw [e, pick_eq text names idx 0 (Nat.zero_le _), Nat.sub_zero]
    cases h : (names.filter (fun n => text.isPrefixOf n))[idx]? with
    | none =>
      have := List.getElem?_eq_none_iff.mp h
      rw [List.drop_eq_nil_iff.mpr this]; rfl
    | some n =>
      obtain ⟨hlt, hv⟩ := List.getElem?_eq_some_iff.mp h
      simp only
      rw [ih, List.drop_eq_getElem_cons hlt, List.take_succ_cons, hv]

theorem walk_eq (names : List (List Byte)) (text : List Byte) (fuel i : Nat) (h : names.length < fuel + i) :
    match walk names text fuel i with
    | (none, _) => (names.drop i).filter (fun n => text.isPrefixOf n) = []
    | (some n, j) => i < j ∧ j ≤ names.length ∧ (names.drop i).filter (fun n => text.isPrefixOf n) =
        n :: (names.drop j).filter (fun n => text.isPrefixOf n) := by
  induction fuel generalizing i with
  | zero =>
    have : names.length ≤ i := by omega
    simp [walk, List.drop_eq_nil_iff.mpr this]
  | succ k ih =>
    unfold walk
    cases hg : names[i]? with
    | none =>
      have := List.getElem?_eq_none_iff.mp hg
      simp [List.drop_eq_nil_iff.mpr this]
    | some n =>
      obtain ⟨hlt, hv⟩ := List.getElem?_eq_some_iff.mp hg
      simp only
      have hd : names.drop i = n :: names.drop (i + 1) := by rw [List.drop_eq_getElem_cons hlt, hv]
      by_cases hp : text.isPrefixOf n = true
      · rw [if_pos hp]
        refine ⟨by omega, by omega, ?_⟩
        rw [hd, List.filter_cons_of_pos (by simpa using hp)]
      · rw [if_neg hp]
        have hi := ih (i + 1) (by omega)
        rw [hd, List.filter_cons_of_neg (by simpa using hp)]
        revert hi
        cases hw : walk names text k (i + 1) with
        | mk a j => cases a with
          | none => exact fun hi => hi
          | some m => exact fun ⟨x, y, z⟩ => ⟨by omega, y, z⟩

theorem collectWalk_from (names : List (List Byte)) (text : List Byte) (fuel i : Nat) (h : names.length < fuel + i) :
    collectWalk names text fuel i = (names.drop i).filter (fun n => text.isPrefixOf n) := by
  induction fuel generalizing i with
  | zero =>
    have : names.length ≤ i := by omega
    simp [collectWalk, List.drop_eq_nil_iff.mpr this]
  | succ k ih =>
    have hw := walk_eq names text (names.length + 1) i (by omega)
    have e : collectWalk names text (k + 1) i = match (walk names text (names.length + 1) i).1 with
      | none => []
      | some n => n :: collectWalk names text k (walk names text (names.length + 1) i).2 := rfl
    rw [e]
    revert hw
    cases hw : walk names text (names.length + 1) i with
    | mk a j => cases a with
      | none => exact fun x => x.symm
      | some n =>
        intro ⟨x, y, z⟩
        simp only
        rw [ih j (by omega), z]

/-! ### Counting arguments -/

theorem fields_ne (l : List Byte) : fields l ≠ [] := by
  cases l with
  | nil => simp [fields]
  | cons c r =>
    unfold fields
    split
    · simp
    · split <;> simp

theorem fields_blank (r : List Byte) : fields (ch ' ' :: r) = [] :: fields r := by
  rw [fields, if_pos rfl]

theorem fields_other {c : Byte} (h : c ≠ ch ' ') (r : List Byte) :
    fields (c :: r) = (c :: (fields r).headD []) :: (fields r).tail := by
  rw [fields, if_neg h]
  cases hl : fields r with
  | nil => exact absurd hl (fields_ne r)
  | cons a b => rfl

/-- The loop, with the last blank at `d` and `w` bytes read since. -/
theorem argsLoop_eq (rest : List Byte) (i d n w : Nat) (hi : i = d + 1 + w) :
    (argsLoop rest i d n).2 = n + ((fields (List.replicate w 1 ++ rest)).dropLast.filter (· ≠ [])).length := by
  induction rest generalizing i d n w with
  | nil =>
    have : ∀ w : Nat, fields (List.replicate w 1) = [List.replicate w 1] := by
      intro w
      induction w with
      | zero => rfl
      | succ k ih => rw [List.replicate_succ, fields_other (by decide), ih]; rfl
    simp [argsLoop, this]
  | cons c r ih =>
    have hf : ∀ (w : Nat) (l : List Byte), fields (List.replicate w 1 ++ l) =
        (List.replicate w 1 ++ (fields l).headD []) :: (fields l).tail := by
      intro w l
      induction w with
      | zero =>
        cases hl : fields l with
        | nil => exact absurd hl (fields_ne l)
        | cons a b => simp [hl]
      | succ k ih => rw [List.replicate_succ, List.cons_append, fields_other (by decide), ih]; rfl
    unfold argsLoop
    by_cases hc : c = ch ' '
    · rw [if_pos hc, ih (i + 1) i _ 0 (by omega), hf w (c :: r)]
      have e1 : fields (c :: r) = [] :: fields r := by rw [hc, fields_blank]
      have e2 : ∀ a : List Byte, (a :: fields r).dropLast = a :: (fields r).dropLast :=
        fun a => List.dropLast_cons_of_ne_nil (fields_ne r)
      simp only [List.replicate_zero, List.nil_append, e1, List.headD_cons, List.append_nil, List.tail_cons]
      rw [e2]
      by_cases hw : w = 0
      · rw [if_neg (by omega), hw]; simp
      · rw [if_pos (by omega), List.filter_cons_of_pos (by simp [hw]), List.length_cons]; omega
    · rw [if_neg hc, ih (i + 1) d n (w + 1) (by omega), hf, hf]
      have e1 := fields_other hc r
      rw [e1]
      simp only [List.headD_cons, List.tail_cons]
      cases ht : (fields r).tail with
      | nil => simp
      | cons a b =>
        have e2 : ∀ x : List Byte, (x :: a :: b).dropLast = x :: (a :: b).dropLast := fun x => rfl
        rw [e2, e2, List.filter_cons_of_pos (by simp), List.filter_cons_of_pos (by simp), List.length_cons, List.length_cons]

theorem argsLoop_delim (pre rest : List Byte) (d n : Nat) :
    (ch ' ' ∈ rest → (pre ++ rest).getD (argsLoop rest pre.length d n).1 0 = ch ' ') ∧
    (ch ' ' ∉ rest → (argsLoop rest pre.length d n).1 = d) := by
  induction rest generalizing pre d n with
  | nil => exact ⟨fun x => (by simp at x), fun _ => rfl⟩
  | cons c r ih =>
    have hp : pre.length + 1 = (pre ++ [c]).length := by simp
    have ha : pre ++ c :: r = (pre ++ [c]) ++ r := by simp
    unfold argsLoop
    rw [hp, ha]
    by_cases hc : c = ch ' '
    · rw [if_pos hc]
      refine ⟨fun _ => ?_, fun x => absurd (hc ▸ List.mem_cons_self ..) x⟩
      by_cases hr : ch ' ' ∈ r
      · exact (ih _ _ _).1 hr
      · rw [(ih _ _ _).2 hr]
        simp [List.getD, hc]
    · rw [if_neg hc]
      refine ⟨fun x => (ih _ _ _).1 ?_, fun x => (ih _ _ _).2 fun y => x (List.mem_cons_of_mem _ y)⟩
      exact (List.mem_cons.mp x).resolve_left (fun y => hc y.symm)

theorem fields_one (l : List Byte) (h : ch ' ' ∉ l) : (fields l).tail = [] := by
  induction l with
  | nil => rfl
  | cons c r ih =>
    rw [fields_other (fun z => h (z ▸ List.mem_cons_self ..))]
    exact ih (fun z => h (List.mem_cons_of_mem _ z))

theorem fields_two (l : List Byte) (h : ch ' ' ∈ l) : (fields l).tail ≠ [] := by
  induction l with
  | nil => simp at h
  | cons c r ih =>
    by_cases hc : c = ch ' '
    · rw [hc, fields_blank]; exact fields_ne r
    · rw [fields_other hc]
      exact ih ((List.mem_cons.mp h).resolve_left (fun y => hc y.symm))

/-- The count on a line that starts with two bytes other than a blank. -/
theorem getArgs_eq {x y : Byte} (hx : x ≠ ch ' ') (hy : y ≠ ch ' ') (rest : List Byte) :
    getArgs (x :: y :: rest) = if ch ' ' ∈ rest then (closed (x :: y :: rest)).length else 1 := by
  have e : argsLoop (x :: y :: rest) 0 0 0 = argsLoop rest 2 0 0 := by
    rw [argsLoop, if_neg hx, argsLoop, if_neg hy]
  have hn := argsLoop_eq rest 2 0 0 1 rfl
  have hd := argsLoop_delim [x, y] rest 0 0
  have e2 : ∀ a : Byte, a ≠ ch ' ' → ∀ l : List Byte, ((fields (a :: l)).dropLast.filter (· ≠ [])).length =
      ((fields (1 :: l)).dropLast.filter (· ≠ [])).length := by
    intro a ha l
    rw [fields_other ha, fields_other (by decide)]
    cases (fields l).tail with
    | nil => rfl
    | cons u v =>
      have e2 : ∀ x : List Byte, (x :: u :: v).dropLast = x :: (u :: v).dropLast := fun x => rfl
      rw [e2, e2, List.filter_cons_of_pos (by simp), List.filter_cons_of_pos (by simp), List.length_cons, List.length_cons]
  have e3 : (closed (x :: y :: rest)).length = ((fields (1 :: rest)).dropLast.filter (· ≠ [])).length := by
    unfold closed
    rw [e2 x hx]
    rw [fields_other (by decide), fields_other hy, fields_other (by decide : (1 : Byte) ≠ ch ' ') rest]
    simp only [List.tail_cons]
    cases (fields rest).tail with
    | nil => rfl
    | cons u v =>
      have e2 : ∀ x : List Byte, (x :: u :: v).dropLast = x :: (u :: v).dropLast := fun x => rfl
      rw [e2, e2, List.filter_cons_of_pos (by simp), List.filter_cons_of_pos (by simp), List.length_cons, List.length_cons]
  have hn : (argsLoop rest 2 0 0).2 = ((fields (1 :: rest)).dropLast.filter (· ≠ [])).length := by
    rw [hn]; simp
  unfold getArgs
  simp only [e, hn]
  by_cases hr : ch ' ' ∈ rest
  · have := hd.1 hr
    rw [if_neg (by rw [show x :: y :: rest = [x, y] ++ rest from rfl]; exact fun z => z this), if_pos hr, e3]
  · have h0 := hd.2 hr
    have h0 : (argsLoop rest 2 0 0).1 = 0 := h0
    rw [h0, if_neg hr, if_pos (by simpa [List.getD] using hx)]
    have : ∀ l : List Byte, ch ' ' ∉ l → ∃ w, fields l = [w] := by
      intro l
      induction l with
      | nil => exact fun _ => ⟨[], rfl⟩
      | cons c r ih =>
        intro h
        obtain ⟨w, hw⟩ := ih (fun z => h (List.mem_cons_of_mem _ z))
        rw [fields_other (fun z => h (z ▸ List.mem_cons_self ..)), hw]
        exact ⟨_, rfl⟩
    obtain ⟨w, hw⟩ := this (1 :: rest) (by
      intro z
      rcases List.mem_cons.mp z with z | z
      · revert z; decide
      · exact hr z)
    rw [hw]; rfl

/-- The completion loop is undefined exactly if a command matches and its index is out of range. -/
theorem completeLoop_none {σ : Type} (s : σ) (text line : List Byte) (cs : List (Cmd σ)) (m : List (List Byte))
    (h3 : ∀ c ∈ cs, c.fns.length = 3) :
    completeLoop s text line cs m = none ↔ (∃ c ∈ cs, c.cmd.isPrefixOf line = true) ∧ (getArgs line = 0 ∨ 3 < getArgs line) := by
  induction cs generalizing m with
  | nil => simp [completeLoop]
  | cons c cs ih =>
    have ih := fun m => ih m (fun x hx => h3 x (List.mem_cons_of_mem _ hx))
    have hl := h3 c (List.mem_cons_self ..)
    unfold completeLoop
    by_cases hp : c.cmd.isPrefixOf line = true
    · rw [if_pos hp]
      have hex : ∃ c' ∈ c :: cs, c'.cmd.isPrefixOf line = true := ⟨c, List.mem_cons_self .., hp⟩
      simp only
      by_cases h0 : getArgs line = 0
      · rw [if_pos h0]; exact ⟨fun _ => ⟨hex, Or.inl h0⟩, fun _ => rfl⟩
      · rw [if_neg h0]
        cases hg : c.fns[getArgs line - 1]? with
        | none =>
          have := List.getElem?_eq_none_iff.mp hg
          exact ⟨fun _ => ⟨hex, Or.inr (by omega)⟩, fun _ => rfl⟩
        | some g =>
          obtain ⟨hlt, -⟩ := List.getElem?_eq_some_iff.mp hg
          have hno : ¬ (getArgs line = 0 ∨ 3 < getArgs line) := by omega
          cases g with
          | none =>
            simp only; rw [ih]
            exact ⟨fun x => absurd x.2 hno, fun x => absurd x.2 hno⟩
          | some g =>
            simp only; rw [ih]
            exact ⟨fun x => absurd x.2 hno, fun x => absurd x.2 hno⟩
    · rw [if_neg hp, ih]
      constructor
      · rintro ⟨⟨c', hc', hp'⟩, h⟩; exact ⟨⟨c', List.mem_cons_of_mem _ hc', hp'⟩, h⟩
      · rintro ⟨⟨c', hc', hp'⟩, h⟩
        rcases List.mem_cons.mp hc' with rfl | hc'
        · exact absurd hp' hp
        · exact ⟨⟨c', hc', hp'⟩, h⟩

end Verif.Cli
