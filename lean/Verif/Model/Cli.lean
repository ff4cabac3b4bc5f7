import Verif.C.Libc
import Verif.Model.Qstr
/-! # The command line of the controllers

`src/ctl/ctl-cli.c`: dispatch of a command line, the help text, the input line handler and
word completion.  What a handler does to the world is left open: the state `σ` of the rest of
the program, including what was printed, is a parameter, as is the effect of printing.
Handlers are assumed to return. -/
namespace Verif.Cli
open Verif.C

/-- When a command is usable, `src/ctl/ctl.h:211-215`. -/
inductive Where where
  | no | maybe | yes
deriving DecidableEq, Repr

/-- How the declared count is meant, `src/ctl/ctl.h:216-220`. -/
inductive Cmp where
  | more | less | equal
deriving DecidableEq, Repr

/-- `EAGAIN`. -/
def EAGAIN : Int := 11

/-- A completion function as used by the tables: the words it offers depend on the state. -/
abbrev Gen (σ : Type) := σ → List Byte → List (List Byte)

/-- `struct cli_cmd`, `src/ctl/ctl.h:208-225`; `argc` is an `int`.  A handler gets the arguments (their
number is `n`) and returns its result with the new state.  `fns` are the three entries for completion. -/
structure Cmd (σ : Type) where
  cmd : List Byte
  args : Option (List Byte) := none
  cli : Where := .maybe
  cmp : Cmp := .more
  argc : Int := 0
  fn : Option (List (List Byte) → σ → Int × σ) := none
  desc : Option (List Byte) := none
  fns : List (Option (Gen σ)) := [none, none, none]

/-- Conversion of an `int` to `unsigned int`. -/
def toU32 (i : Int) : Nat := (i % (W32 : Int)).toNat

/-- The two tests of `cli_cmp`, `ctl-cli.c:153-156, 183-186`; `rl` is `is_cli()`. -/
def hidden {σ : Type} (rl : Bool) (c : Cmd σ) : Bool :=
  (rl && c.cli == .no) || (!rl && c.cli == .yes)

/-- `%-*s` with the width `w` (a negative width is its absolute value). -/
def leftPad (w : Int) (s : List Byte) : List Byte := s ++ List.replicate (w.natAbs - s.length) (ch ' ')

/-- One line of `cli_help`, `ctl-cli.c:158-162`. -/
def helpLine {σ : Type} (whitespace : Int) (c : Cmd σ) : List Byte :=
  bytes "  " ++ c.cmd ++ bytes " " ++ leftPad (whitespace - c.cmd.length) (c.args.getD []) ++ bytes " " ++ c.desc.getD [] ++ [10]

/-- Loop of `cli_help`, `ctl-cli.c:150-163`. -/
def helpLoop {σ : Type} (print : List Byte → σ → σ) (rl : Bool) (whitespace : Int) : List (Cmd σ) → σ → σ
  | [], s => s
  | c :: cs, s =>
    if c.desc = none then helpLoop print rl whitespace cs s
    else if hidden rl c then helpLoop print rl whitespace cs s
    else helpLoop print rl whitespace cs (print (helpLine whitespace c) s)

/-- `cli_help`, `ctl-cli.c:144-166`. -/
def help {σ : Type} (print : List Byte → σ → σ) (rl : Bool) (cmds : List (Cmd σ)) (whitespace : Int) (s : σ) : Int × σ :=
  (0, helpLoop print rl whitespace cmds (print (bytes "Available commands:\n") s))

/-- Loop and end of `cli_do`, `ctl-cli.c:180-223`; `all` is the whole table (for the help), the
list what is left of it. -/
def doLoop {σ : Type} (print : List Byte → σ → σ) (rl : Bool) (all : List (Cmd σ)) (cmd : List Byte)
    (args : List (List Byte)) (s : σ) : List (Cmd σ) → Int × σ
  | [] => if cmd = bytes "help" then help print rl all 40 s else (-EAGAIN, s)
  | c :: cs =>
    if cmd ≠ c.cmd then doLoop print rl all cmd args s cs
    else if hidden rl c then doLoop print rl all cmd args s cs
    else
      let n := args.length % W32
      if c.cmp = .equal ∧ n ≠ toU32 c.argc then (-EINVAL, print (bytes "Invalid number of arguments\n") s)
      else if c.cmp = .more ∧ n < toU32 c.argc then (-EINVAL, print (bytes "too few arguments\n") s)
      else if c.cmp = .less ∧ n > toU32 c.argc then (-EINVAL, print (bytes "too many arguments\n") s)
      else
        match c.fn with
        | some f =>
          let r := f args s
          (if r.1 = -EAGAIN then -EINVAL else r.1, r.2)
        | none => if cmd = bytes "help" then help print rl all 40 s else (-EAGAIN, s)

/-- `cli_do`, `ctl-cli.c:168-224`. -/
def cliDo {σ : Type} (print : List Byte → σ → σ) (rl : Bool) (cmds : List (Cmd σ)) (words : List (List Byte)) (s : σ) : Int × σ :=
  match words with
  | [] => (-EAGAIN, s)
  | cmd :: args => doLoop print rl cmds cmd args s cmds

/-- What `cli_handler_fn` asks of readline and the event loop. -/
structure Env (σ : Type) where
  print : List Byte → σ → σ
  quit : σ → σ
  noMem : σ → σ
  history : List Byte → σ → σ

/-- `cli_handler_fn`, `ctl-cli.c:226-255`; no input (end of file) is `none`.  The tokenizer works on
the line itself and leaves it as it is. -/
def handler {σ : Type} (E : Env σ) (rl : Bool) (cmds : List (Cmd σ)) (al : Nat → Qstr.QAlloc) (first : Bool)
    (input : Option (List Byte)) (s : σ) : Option σ :=
  match input with
  | none => some (E.quit s)
  | some line => do
    match (← Qstr.tokenize line al first) with
    | none => some (E.noMem s)
    | some [] => some s
    | some words =>
      let s := if line = bytes "quit" ∨ line = bytes "exit" then s else E.history line s
      let r := cliDo E.print rl cmds words s
      if r.1 = -EAGAIN then some (E.print (bytes "Command not found\n") r.2) else some r.2

/-! ### Completion -/

/-- Loop of `get_args`, `ctl-cli.c:584-593`, over the rest of the line; `i` is the index of `tmp`,
`d` that of `last_delim`. -/
def argsLoop : List Byte → Nat → Nat → Nat → Nat × Nat
  | [], _, d, n => (d, n)
  | c :: rest, i, d, n =>
    if c = ch ' ' then argsLoop rest (i + 1) i (if d + 1 < i then n + 1 else n)
    else argsLoop rest (i + 1) d n

/-- `get_args`, `ctl-cli.c:577-597`; at the end of an empty line `last_delim` is at the NUL. -/
def getArgs (line : List Byte) : Nat :=
  let r := argsLoop line 0 0 0
  if line.getD r.1 0 ≠ ch ' ' then r.2 + 1 else r.2

/-- One turn of `rl_completion_matches` with a generator that walks a NULL-terminated array from its
static index, `command_generator` and `yes_no_generator`, `ctl-cli.c:549-575, 330-356`:
the next name that starts with `text`, and the index behind it. -/
def walk (names : List (List Byte)) (text : List Byte) : Nat → Nat → Option (List Byte) × Nat
  | 0, i => (none, i)
  | fuel + 1, i =>
    match names[i]? with
    | none => (none, i)
    | some n => if text.isPrefixOf n then (some n, i + 1) else walk names text fuel (i + 1)

/-- One call of the generators that count, `links_peers_generator`, `peers_generator`,
`links_generator`, `ctl-cli.c:358-541`: the list is walked from its start, and the match with
number `idx` is returned (`cnt` is the number of matches so far). -/
def pick (text : List Byte) (idx : Nat) : List (List Byte) → Nat → Option (List Byte)
  | [], _ => none
  | n :: ns, cnt =>
    if text.isPrefixOf n then (if cnt = idx then some n else pick text idx ns (cnt + 1)) else pick text idx ns cnt

/-- The words of a link or peer, in the order the generators try them: the label, then the friendly
name unless it is missing or empty. -/
def wordsOf (label : List Byte) (friendly : Option (List Byte)) : List (List Byte) :=
  label :: (match friendly with | some (c :: n) => [c :: n] | _ => [])

/-- What `rl_completion_matches` collects: it calls the generator with state 0, 1, 1, … until NULL. -/
def collectPick (names : List (List Byte)) (text : List Byte) : Nat → Nat → List (List Byte)
  | 0, _ => []
  | fuel + 1, idx => match pick text idx names 0 with
    | none => []
    | some n => n :: collectPick names text fuel (idx + 1)

/-- The same for the generators that keep their place. -/
def collectWalk (names : List (List Byte)) (text : List Byte) : Nat → Nat → List (List Byte)
  | 0, _ => []
  | fuel + 1, idx =>
    let r := walk names text (names.length + 1) idx
    match r.1 with
    | none => []
    | some n => n :: collectWalk names text fuel r.2

/-- Loop of `completion_fn`, `ctl-cli.c:617-628`: every command whose name the line starts with sets the
matches; `none` is the access outside `completion_fns`. -/
def completeLoop {σ : Type} (s : σ) (text line : List Byte) : List (Cmd σ) → List (List Byte) → Option (List (List Byte))
  | [], m => some m
  | c :: cs, m =>
    if c.cmd.isPrefixOf line then
      let n := getArgs line
      if n = 0 then none
      else match c.fns[n - 1]? with
        | none => none
        | some none => completeLoop s text line cs m
        | some (some g) => completeLoop s text line cs (g s text)
    else completeLoop s text line cs m

/-- `completion_fn`, `ctl-cli.c:606-632`. -/
def complete {σ : Type} (cmds : List (Cmd σ)) (s : σ) (text line : List Byte) (start : Nat) : Option (List (List Byte)) :=
  if start = 0 then some (collectWalk (cmds.map (·.cmd)) text ((cmds.map (·.cmd)).length + 1) 0)
  else completeLoop s text line cmds []

end Verif.Cli
