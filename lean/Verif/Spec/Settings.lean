import Verif.Model.Settings
/-!
# Specification of the settings of the programs (C123-C125)

What is chosen is stated with the options and files alone; the command lines of started programs are read by an interpreter of POSIX `getopts`.
-/
namespace Verif.Settings.Spec
open Verif.C

/-- The last value given on the command line. -/
def last {α β : Type} (f : α → Option β) (args : List α) : Option β := (args.filterMap f).getLast?

/-- The text a file has for a key. -/
def text (file : Option Ini) (group key : String) : Option (List Byte) := file.bind fun f => (f (bytes group)).get (bytes key)

/-- The command line comes first, then the file, then the default. -/
def chosen {α : Type} (cli file : Option α) (dflt : α) : α :=
  match cli, file with
  | some x, _ => x
  | none, some x => x
  | none, none => dflt

/-- A text of a file that means yes: `true` or `1`, perhaps with blanks behind. -/
def Yes (v : List Byte) : Prop := ∃ b, (∀ c ∈ b, blank c = true) ∧ (v = bytes "true" ++ b ∨ v = bytes "1" ++ b)

/-- Options by name. -/
def WArg.text : String → WArg → Option (List Byte)
  | "log-level", .logLevel v => some v
  | "wpa-loglevel", .wpaLevel v => some v
  | "interface", .iface v => some v
  | "config-methods", .methods v => some v
  | "driver-param", .driver v => some v
  | "ip-binary", .ipBinary v => some v
  | "go-intent", .intent v => some v
  | _, _ => none

/-- Options by name. -/
def SArg.text : String → SArg → Option (List Byte)
  | "log-level", .logLevel v => some v
  | "log-journal-level", .journalLevel v => some v
  | "gst-debug", .gstDebug v => some v
  | "audio", .audio v => some v
  | "scale", .scale v => some v
  | "port", .port v => some v
  | "external-player", .player v => some v
  | _, _ => none

/-- The masks of `--res`: CEA, VESA, handheld. -/
def SArg.mask : Nat → SArg → Option Nat
  | i, .res v => if i < 3 then v[i]? else none
  | _, _ => none

/-- Options by name. -/
def CArg.text : String → CArg → Option (List Byte)
  | "log-level", .logLevel v => some v
  | "log-journal-level", .journalLevel v => some v
  | _, _ => none

/-- The options after which the program ends, with its status. -/
def WArg.ends : WArg → Option Nat
  | .help => some 0
  | .version => some 0
  | .bad => some 1
  | _ => none

/-- The options after which the program ends, with its status. -/
def SArg.ends : SArg → Option Nat
  | .help => some 0
  | .helpCommands => some 0
  | .helpRes => some 0
  | .version => some 0
  | .bad => some 1
  | _ => none

/-- The options after which the program ends, with its status. -/
def CArg.ends : CArg → Option Nat
  | .help => some 0
  | .helpCommands => some 0
  | .version => some 0
  | .bad => some 1
  | _ => none

/-- A text and its words between separators; empty words do not count. -/
inductive Split (sep : Byte) : List Byte → List (List Byte) → Prop
  | nil : Split sep [] []
  | skip {t ws} : Split sep t ws → Split sep (sep :: t) ws
  | word {w t ws} : w ≠ [] → sep ∉ w → (t = [] ∨ t.head? = some sep) → Split sep t ws → Split sep (w ++ t) (w :: ws)

/-- The options in one word of a command line: what stands behind the dash, and the words that follow. -/
def cluster (takes : Byte → Bool) : List Byte → List (List Byte) → List (Byte × Option (List Byte)) × List (List Byte)
  | [], t => ([], t)
  | c :: cs, t =>
    if takes c then
      if cs ≠ [] then ([(c, some cs)], t)
      else match t with
        | [] => ([(c, none)], [])
        | v :: t => ([(c, some v)], t)
    else ((c, none) :: (cluster takes cs t).1, (cluster takes cs t).2)

/-- `getopts`: the options up to the first word that is none; the number bounds the words read. -/
def getopts (takes : Byte → Bool) : Nat → List (List Byte) → List (Byte × Option (List Byte))
  | n + 1, (d :: c :: cs) :: t =>
    if d = ch '-' ∧ (c :: cs) ≠ [ch '-'] then (cluster takes (c :: cs) t).1 ++ getopts takes n (cluster takes (c :: cs) t).2 else []
  | _, _ => []

/-- The options a program sees. -/
def options (takes : Byte → Bool) (args : List (List Byte)) : List (Byte × Option (List Byte)) := getopts takes args.length args

/-- The value of an option: the last one given. -/
def value (opts : List (Byte × Option (List Byte))) (c : Char) : Option (List Byte) := last (fun o => if o.1 = ch c then o.2 else none) opts

/-- Whether an option is given. -/
def given (opts : List (Byte × Option (List Byte))) (c : Char) : Prop := ∃ v, (ch c, v) ∈ opts

/-- `getopts "r:d:as:p:h"` of the players, `res/miracle-gst`. -/
def playerTakes (c : Byte) : Bool := c = ch 'r' || c = ch 'd' || c = ch 's' || c = ch 'p'

/-- The options of wpa_supplicant with values that are used here. -/
def wpasTakes (c : Byte) : Bool := c = ch 'c' || c = ch 'C' || c = ch 'i' || c = ch 'g'

/-- How often wpa_supplicant is told to say more (`d`) or less (`q`) for a level. -/
def loudness : List (String × Nat × Nat) :=
  [("fatal", 0, 2), ("alert", 0, 2), ("critical", 0, 2), ("error", 0, 1), ("warning", 0, 1), ("notice", 0, 0), ("info", 1, 0), ("debug", 2, 0), ("trace", 2, 0)]

end Verif.Settings.Spec
