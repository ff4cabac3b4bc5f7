import Verif.Proof.Cli
import Verif.Props.Qstr
/-! # C55, C92: the command line of the controllers -/
namespace Verif.Cli
open Verif.C

/-- A small table for the examples; the state is the list of what was printed or done. -/
def demo : List (Cmd (List (List Byte))) := [
  { cmd := bytes "list", cmp := .less, argc := 0, desc := some (bytes "List"), fn := some fun _ s => (0, s ++ [bytes "list"]) },
  { cmd := bytes "run", args := some (bytes "<link>"), cmp := .equal, argc := 1, desc := some (bytes "Run"),
    fn := some fun a s => (-EAGAIN, s ++ bytes "run" :: a), fns := [some fun _ _ => [bytes "l1"], none, none] },
  { cmd := bytes "quit", cli := .yes, fn := some fun _ s => (0, s ++ [bytes "bye"]) },
  { cmd := bytes "quit", cli := .maybe, fn := some fun _ s => (7, s ++ [bytes "second"]) },
  { cmd := bytes "help", desc := some (bytes "Print help") }]

/-- Printing, for the examples. -/
def say (t : List Byte) (s : List (List Byte)) : List (List Byte) := s ++ [t]

/-- **C55.** For every table, command line and state: the first usable command of that name is
chosen. Its handler runs, once and with all arguments, if their number is legal, and otherwise only a
complaint is printed. The result of a handler is passed on, except that `-EAGAIN` becomes `-EINVAL`.
Without such a command (or without a handler) nothing runs: the result is `-EAGAIN`, or the help if
that was asked for. -/
theorem dispatch_exact {σ : Type} (print : List Byte → σ → σ) (rl : Bool) (cmds : List (Cmd σ)) (cmd : List Byte)
    (args : List (List Byte)) (s : σ) (hn : args.length < W32) (hc : ∀ c ∈ cmds, 0 ≤ c.argc ∧ c.argc < W32) :
    cliDo print rl cmds (cmd :: args) s =
      let unknown := if cmd = bytes "help" then help print rl cmds 40 s else (-EAGAIN, s)
      match chosen rl cmds cmd with
      | none => unknown
      | some c =>
        if legal c args.length then
          match c.fn with
          | some f => (if (f args s).1 = -EAGAIN then -EINVAL else (f args s).1, (f args s).2)
          | none => unknown
        else (-EINVAL, print (complaint c) s) :=
  doLoop_eq print rl cmds cmd args s hn cmds hc

example : cliDo say true demo [bytes "run", bytes "x"] [] = (-EINVAL, [bytes "run", bytes "x"]) ∧
    cliDo say true demo [bytes "run"] [] = (-EINVAL, [bytes "Invalid number of arguments\n"]) ∧
    cliDo say true demo [bytes "list", bytes "x"] [] = (-EINVAL, [bytes "too many arguments\n"]) ∧
    cliDo say true demo [bytes "quit"] [] = (0, [bytes "bye"]) ∧
    cliDo say false demo [bytes "quit"] [] = (7, [bytes "second"]) ∧
    cliDo say false demo [bytes "what"] [] = (-EAGAIN, []) := by decide +kernel

/-- **C55**, at most one handler: the new state is what one handler makes of the old one, or a printed
text, or the help, or the old state. -/
theorem one_handler {σ : Type} (print : List Byte → σ → σ) (rl : Bool) (cmds : List (Cmd σ)) (cmd : List Byte)
    (args : List (List Byte)) (s : σ) (hn : args.length < W32) (hc : ∀ c ∈ cmds, 0 ≤ c.argc ∧ c.argc < W32) :
    (∃ (i : Nat) (c : Cmd σ) (f : List (List Byte) → σ → Int × σ), cmds[i]? = some c ∧ c.cmd = cmd ∧ usable rl c ∧ legal c args.length ∧ c.fn = some f ∧
      (∀ (j : Nat) (d : Cmd σ), j < i → cmds[j]? = some d → d.cmd = cmd → ¬ usable rl d) ∧
      (cliDo print rl cmds (cmd :: args) s).2 = (f args s).2) ∨
    (∃ c ∈ cmds, c.cmd = cmd ∧ ¬ legal c args.length ∧ cliDo print rl cmds (cmd :: args) s = (-EINVAL, print (complaint c) s)) ∨
    (cmd = bytes "help" ∧ cliDo print rl cmds (cmd :: args) s = help print rl cmds 40 s) ∨
    cliDo print rl cmds (cmd :: args) s = (-EAGAIN, s) := by
  rw [dispatch_exact print rl cmds cmd args s hn hc]
  simp only
  have un : ∀ x : Int × σ, x = (if cmd = bytes "help" then help print rl cmds 40 s else (-EAGAIN, s)) →
      (cmd = bytes "help" ∧ x = help print rl cmds 40 s) ∨ x = (-EAGAIN, s) := by
    intro x hx
    by_cases h : cmd = bytes "help"
    · rw [if_pos h] at hx; exact Or.inl ⟨h, hx⟩
    · rw [if_neg h] at hx; exact Or.inr hx
  cases h : chosen rl cmds cmd with
  | none => exact Or.inr (Or.inr (un _ rfl))
  | some c =>
    simp only
    obtain ⟨hp, i, hi, hci, hbefore⟩ := List.find?_eq_some_iff_getElem.mp h
    simp only [decide_eq_true_eq] at hp
    by_cases hl : legal c args.length
    · rw [if_pos hl]
      cases hf : c.fn with
      | none => exact Or.inr (Or.inr (un _ rfl))
      | some f =>
        refine Or.inl ⟨i, c, f, by rw [List.getElem?_eq_getElem hi, hci], hp.1.symm, hp.2, hl, hf, ?_, rfl⟩
        intro j d hj hd hdc hu
        obtain ⟨hlt, he⟩ := List.getElem?_eq_some_iff.mp hd
        have := hbefore j hj
        rw [he] at this
        simp [hdc, hu] at this
    · rw [if_neg hl]
      exact Or.inr (Or.inl ⟨c, hci ▸ List.getElem_mem hi, hp.1.symm, hl, rfl⟩)

example : ∃ c ∈ demo, usable true c ∧ legal c 1 ∧ c.cmd = bytes "run" := by
  refine ⟨demo[1], List.getElem_mem _, by decide, by decide, rfl⟩

/-- **C55**, unknown commands: if no usable command has the name, no handler runs and the caller is told. -/
theorem unknown_reported {σ : Type} (print : List Byte → σ → σ) (rl : Bool) (cmds : List (Cmd σ)) (cmd : List Byte)
    (args : List (List Byte)) (s : σ) (hn : args.length < W32) (hc : ∀ c ∈ cmds, 0 ≤ c.argc ∧ c.argc < W32)
    (h : ∀ c ∈ cmds, c.cmd = cmd → ¬ usable rl c) (hh : cmd ≠ bytes "help") :
    cliDo print rl cmds (cmd :: args) s = (-EAGAIN, s) := by
  rw [dispatch_exact print rl cmds cmd args s hn hc]
  have : chosen rl cmds cmd = none := by
    refine List.find?_eq_none.mpr fun c hcm => ?_
    simp only [decide_eq_true_eq]
    exact fun x => h c hcm x.1.symm x.2
  simp only [this, if_neg hh]

/-- **C55**: a command that the caller is told not to exist had no handler run. -/
theorem told_unknown {σ : Type} (print : List Byte → σ → σ) (rl : Bool) (cmds : List (Cmd σ)) (words : List (List Byte)) (s : σ)
    (hn : words.length ≤ W32) (hc : ∀ c ∈ cmds, 0 ≤ c.argc ∧ c.argc < W32)
    (h : (cliDo print rl cmds words s).1 = -EAGAIN) : (cliDo print rl cmds words s).2 = s := by
  cases words with
  | nil => rfl
  | cons cmd args =>
    have hne : (-EINVAL : Int) ≠ -EAGAIN := by decide
    have hz : (0 : Int) ≠ -EAGAIN := by decide
    rw [dispatch_exact print rl cmds cmd args s (by simp at hn; omega) hc] at h ⊢
    have un : (if cmd = bytes "help" then help print rl cmds 40 s else (-EAGAIN, s)).1 = -EAGAIN →
        (if cmd = bytes "help" then help print rl cmds 40 s else (-EAGAIN, s)).2 = s := by
      split
      · intro x; exact absurd x hz
      · intro _; rfl
    simp only at h ⊢
    revert h
    cases chosen rl cmds cmd with
    | none => exact un
    | some c =>
      simp only
      by_cases hl : legal c args.length
      · rw [if_pos hl]
        cases c.fn with
        | none => exact un
        | some f =>
          simp only
          split
          · intro x; exact absurd x hne
          · intro x; contradiction
      · rw [if_neg hl]; intro x; exact absurd x hne

example : (cliDo say true demo [bytes "stop"] [[1]]).1 = -EAGAIN := by decide +kernel

/-- **C55**, the help: the heading and then exactly the documented commands that are usable here, in
the order of the table. -/
theorem help_exact {σ : Type} (print : List Byte → σ → σ) (rl : Bool) (cmds : List (Cmd σ)) (w : Int) (s : σ) :
    help print rl cmds w s = (0, ((bytes "Available commands:\n") :: (shownIn rl cmds).map (helpLine w)).foldl (fun s t => print t s) s) := by
  unfold help
  rw [helpLoop_eq, List.foldl_cons, List.foldl_map]

example : (help say true demo 10 []).2 = [bytes "Available commands:\n", bytes "  list        List\n",
    bytes "  run <link>  Run\n", bytes "  help        Print help\n"] := by decide +kernel

/-- **C55**, for the input line: it is cut into the words of the quoted-string language; an empty
line does nothing; otherwise it is put into the history (unless it is `quit` or `exit`) and
dispatched, and an unknown command is reported on the screen. -/
theorem line_exact {σ : Type} (E : Env σ) (rl : Bool) (cmds : List (Cmd σ)) (al : Nat → Qstr.QAlloc) (line : List Byte) (s : σ)
    (hal : ∀ n, (al n).malloc.isSome = true ∧ (al n).realloc = true) (hlen : line.length ≤ 10 ^ 18) :
    handler E rl cmds al true (some line) s =
      if Qstr.Spec.tokens line = [] then some s
      else
        let s1 := if line = bytes "quit" ∨ line = bytes "exit" then s else E.history line s
        let r := cliDo E.print rl cmds (Qstr.Spec.tokens line) s1
        some (if r.1 = -EAGAIN then E.print (bytes "Command not found\n") r.2 else r.2) := by
  unfold handler
  simp only [Qstr.qstr_tokenize_exact line al hal hlen, Option.bind_eq_bind, Option.bind_some]
  cases h : Qstr.Spec.tokens line with
  | nil => simp
  | cons w ws =>
    simp only [reduceCtorEq, if_false]
    split <;> split <;> rfl

/-- The environment of the examples. -/
def env : Env (List (List Byte)) := ⟨say, fun s => s ++ [bytes "QUIT"], fun s => s ++ [bytes "NOMEM"], fun l s => s ++ [bytes "H:" ++ l]⟩

example : handler env true demo (Qstr.plenty 3) true (some (bytes "  run 'a b'")) [] =
      some [bytes "H:  run 'a b'", bytes "run", bytes "a b"] ∧
    handler env true demo (Qstr.plenty 3) true (some (bytes "ru x")) [] = some [bytes "H:ru x", bytes "Command not found\n"] ∧
    handler env true demo (Qstr.plenty 3) true (some (bytes "quit")) [] = some [bytes "bye"] ∧
    handler env true demo (Qstr.plenty 3) true (some (bytes "   ")) [] = some [] ∧
    handler env true demo (Qstr.plenty 3) true none [] = some [bytes "QUIT"] := by decide +kernel

/-! ## C92: completion -/

/-- **C92**, what the generators offer: exactly the names that start with the text, each once per
occurrence and in order. -/
theorem generators_exact (names : List (List Byte)) (text : List Byte) (fuel : Nat) (h : names.length < fuel) :
    collectPick names text fuel 0 = names.filter (fun n => text.isPrefixOf n) ∧
    collectWalk names text fuel 0 = names.filter (fun n => text.isPrefixOf n) := by
  constructor
  · rw [collectPick_from, List.drop_zero, List.take_of_length_le]
    have := List.length_filter_le (fun n => text.isPrefixOf n) names
    omega
  · rw [collectWalk_from names text fuel 0 (by omega), List.drop_zero]

example : collectPick (wordsOf (bytes "3") (some (bytes "tv")) ++ wordsOf (bytes "4") (some []) ++ wordsOf (bytes "5") (some (bytes "tv2")))
    (bytes "t") 9 0 = [bytes "tv", bytes "tv2"] := by decide +kernel

/-- **C92**, the names offered for links and peers: the labels, and the friendly names that are not empty, of those that
there are, as far as they start with what was typed. -/
theorem names_offered (objs : List (List Byte × Option (List Byte))) (text : List Byte) (fuel : Nat)
    (h : (objs.flatMap fun o => wordsOf o.1 o.2).length < fuel) (n : List Byte) :
    n ∈ collectPick (objs.flatMap fun o => wordsOf o.1 o.2) text fuel 0 ↔
      text <+: n ∧ ∃ o ∈ objs, n = o.1 ∨ (o.2 = some n ∧ n ≠ []) := by
  rw [(generators_exact _ text fuel h).1, List.mem_filter, List.mem_flatMap, List.isPrefixOf_iff_prefix, and_comm]
  refine and_congr_right fun _ => exists_congr fun o => and_congr_right fun _ => ?_
  obtain ⟨l, f⟩ := o
  unfold wordsOf
  rcases f with _ | _ | ⟨c, f⟩
  · simp
  · simp only [List.mem_cons, List.not_mem_nil, or_false, Option.some.injEq]
    exact ⟨Or.inl, fun h => h.elim id fun h => absurd h.1.symm h.2⟩
  · simp only [List.mem_cons, List.not_mem_nil, or_false, Option.some.injEq]
    exact or_congr_right ⟨fun h => ⟨h.symm, by simp [h]⟩, fun h => h.1.symm⟩

example : bytes "tv" ∈ collectPick ([(bytes "3", some (bytes "tv")), (bytes "4", some [])].flatMap fun o => wordsOf o.1 o.2) (bytes "t") 9 0 := by
  decide +kernel

/-- **C92**, the first word: the commands of the table that start with what was typed. -/
theorem complete_command {σ : Type} (cmds : List (Cmd σ)) (s : σ) (text line : List Byte) :
    complete cmds s text line 0 = some ((cmds.map (·.cmd)).filter (fun n => text.isPrefixOf n)) := by
  unfold complete
  rw [if_pos rfl, (generators_exact _ text _ (Nat.lt_succ_self _)).2]

/-- **C92** (violated): completing a further word of a command is undefined (an access outside the
table of completion functions) exactly if more than three words of the line are complete. Names of
commands have at least two letters and no blank. -/
theorem complete_undefined_iff {σ : Type} (cmds : List (Cmd σ)) (s : σ) (text line : List Byte) (start : Nat) (hs : start ≠ 0)
    (h3 : ∀ c ∈ cmds, c.fns.length = 3) (hc : ∀ c ∈ cmds, 2 ≤ c.cmd.length ∧ ch ' ' ∉ c.cmd) :
    complete cmds s text line start = none ↔ (∃ c ∈ cmds, c.cmd <+: line) ∧ 3 < (closed line).length := by
  unfold complete
  rw [if_neg hs, completeLoop_none s text line cmds [] h3]
  simp only [List.isPrefixOf_iff_prefix]
  refine and_congr_right fun ⟨c, hcm, hp⟩ => ?_
  obtain ⟨h2, hb⟩ := hc c hcm
  obtain ⟨t, ht⟩ := hp
  match hcc : c.cmd, h2, hb with
  | x :: y :: r, _, hb =>
    rw [hcc] at ht
    have hx : x ≠ ch ' ' := fun z => hb (z ▸ List.mem_cons_self ..)
    have hy : y ≠ ch ' ' := fun z => hb (z ▸ List.mem_cons_of_mem _ (List.mem_cons_self ..))
    have ht : line = x :: y :: (r ++ t) := by rw [← ht]; rfl
    rw [ht, getArgs_eq hx hy]
    have hcl : 1 ≤ (closed (x :: y :: (r ++ t))).length ∨ ch ' ' ∉ r ++ t := by
      by_cases hm : ch ' ' ∈ r ++ t
      · left
        unfold closed
        rw [fields_other hx, fields_other hy]
        simp only [List.tail_cons]
        have : (fields (r ++ t)).tail ≠ [] := fields_two _ hm
        rw [List.dropLast_cons_of_ne_nil this, List.filter_cons_of_pos (by simp)]
        simp
      · exact Or.inr hm
    have hcn : ch ' ' ∉ r ++ t → (closed (x :: y :: (r ++ t))).length = 0 := by
      intro hm
      unfold closed
      rw [fields_other hx, fields_other hy]
      simp only [List.tail_cons]
      rw [fields_one _ hm]; rfl
    split
    · rename_i hm
      rcases hcl with hcl | hcl
      · omega
      · exact absurd hm hcl
    · rename_i hm
      rw [hcn hm]; omega

example : closed (bytes "run  tv a b c") = [bytes "run", bytes "tv", bytes "a", bytes "b"] ∧
    complete demo [] (bytes "c") (bytes "run  tv a b c") 12 = none ∧
    complete demo [] (bytes "b") (bytes "run tv a b") 9 = some [] ∧
    complete demo [] [] (bytes "run ") 4 = some [bytes "l1"] ∧
    complete demo [] (bytes "qu") (bytes "qu") 0 = some [bytes "quit", bytes "quit"] := by decide +kernel

/-- **C92**, what holds: with at most three complete words and one command the line starts with, the
words offered are those of the completion function at that place. Missing: the fourth word. -/
theorem complete_partial {σ : Type} (pre post : List (Cmd σ)) (c : Cmd σ) (s : σ) (text line : List Byte) (start : Nat) (hs : start ≠ 0)
    (hpre : ∀ d ∈ pre, ¬ d.cmd <+: line) (hpost : ∀ d ∈ post, ¬ d.cmd <+: line)
    (h3 : c.fns.length = 3) (hc : 2 ≤ c.cmd.length ∧ ch ' ' ∉ c.cmd) (rest : List Byte) (hl : line = c.cmd ++ ch ' ' :: rest) (hn : (closed line).length ≤ 3) :
    complete (pre ++ c :: post) s text line start =
      some (match c.fns[(closed line).length - 1]? with | some (some g) => g s text | _ => []) := by
  have hp : c.cmd.isPrefixOf line = true := List.isPrefixOf_iff_prefix.mpr ⟨_, hl.symm⟩
  obtain ⟨h2, hb⟩ := hc
  have skip : ∀ (l l' : List (Cmd σ)) (m : List (List Byte)), (∀ d ∈ l, ¬ d.cmd <+: line) →
      completeLoop s text line (l ++ l') m = completeLoop s text line l' m := by
    intro l l' m h
    induction l with
    | nil => rfl
    | cons d l ih =>
      rw [List.cons_append, completeLoop, if_neg (fun x => h d (List.mem_cons_self ..) (List.isPrefixOf_iff_prefix.mp x)),
        ih (fun d hd => h d (List.mem_cons_of_mem _ hd))]
  have hend : ∀ m, completeLoop s text line post m = some m := by
    intro m
    have := skip post [] m hpost
    rw [List.append_nil] at this
    rw [this]; rfl
  unfold complete
  rw [if_neg hs, skip pre _ _ hpre, completeLoop, if_pos hp]
  match hcc : c.cmd, h2, hb with
  | x :: y :: r, _, hb =>
    rw [hcc] at hl
    have hx : x ≠ ch ' ' := fun z => hb (z ▸ List.mem_cons_self ..)
    have hy : y ≠ ch ' ' := fun z => hb (z ▸ List.mem_cons_of_mem _ (List.mem_cons_self ..))
    have hl : line = x :: y :: (r ++ ch ' ' :: rest) := by rw [hl]; rfl
    have hg : getArgs line = (closed line).length := by
      rw [hl, getArgs_eq hx hy, if_pos (by simp)]
    have hpos : 1 ≤ (closed line).length := by
      rw [hl]
      unfold closed
      rw [fields_other hx, fields_other hy]
      simp only [List.tail_cons]
      have : (fields (r ++ ch ' ' :: rest)).tail ≠ [] := fields_two _ (by simp)
      rw [List.dropLast_cons_of_ne_nil this, List.filter_cons_of_pos (by simp)]
      simp
    simp only [hg]
    rw [if_neg (by omega)]
    cases hf : c.fns[(closed line).length - 1]? with
    | none =>
      have := List.getElem?_eq_none_iff.mp hf
      omega
    | some g => cases g <;> simp only [hend]

example : demo[0].cmd.isPrefixOf (bytes "run l") = false ∧ closed (bytes "run l") = [bytes "run"] ∧
    complete demo [] (bytes "l") (bytes "run l") 4 = some [bytes "l1"] := by decide +kernel

end Verif.Cli
