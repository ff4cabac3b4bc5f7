import Verif.Model.Log
import Verif.Model.Wifid
/-!
# Model of the settings of the programs

`load_ini_file` (`src/shared/util.h`), the `parse_argv` and `main` of `src/wifi/wifid.c`, `src/ctl/sinkctl.c` and `src/ctl/wifictl.c`, and the command lines with
which wpa_supplicant (`src/wifi/wifid-supplicant.c`) and the player (`src/ctl/sinkctl.c`) are started.

Contracts: GLib's key files (a group is a list of keys with values), `getopt_long` (the command line is the list of its options in order and the words that are no
options), `sscanf` of `--res` (given by the numbers it reads). That memory can run out is left out.
-/
namespace Verif.Settings
open Verif.C

/-- The keys of a group of a key file. -/
abbrev Group := List (List Byte × List Byte)

/-- A key file: its groups. -/
abbrev Ini := List Byte → Group

/-- `g_key_file_get_string`. -/
def Group.get (g : Group) (key : List Byte) : Option (List Byte) := (g.find? fun x => x.1 = key).map (·.2)

/-- White space of `g_ascii_isspace`. -/
def blank (b : Byte) : Bool := b = 32 || (9 ≤ b && b ≤ 13 && b ≠ 11)

/-- `g_key_file_get_boolean`; false on all errors. -/
def Group.bool (g : Group) (key : List Byte) : Bool :=
  match g.get key with
  | none => false
  | some v => let v := (v.reverse.dropWhile blank).reverse
    v = bytes "true" || v = bytes "1"

/-- `g_key_file_get_uint64`; 0 on all errors.  Only unsigned decimal numbers are modelled as valid. -/
def Group.u64 (g : Group) (key : List Byte) : Nat :=
  match g.get key with
  | none => 0
  | some v => if v ≠ [] ∧ v.all (fun b => 48 ≤ b && b ≤ 57) = true ∧ v.foldl (fun n b => 10 * n + (b.toNat - 48)) 0 < W64
    then v.foldl (fun n b => 10 * n + (b.toNat - 48)) 0 else 0

/-- `g_build_filenamev` of words that are not empty and neither begin nor end with a slash, except for the first. -/
def path : List (List Byte) → List Byte
  | [] => []
  | [x] => x
  | x :: t => x ++ [ch '/'] ++ path t

/-- `config_paths`, `src/shared/util.h:42-50`. -/
def places (home : List Byte) : List (List (List Byte)) :=
  [[home, bytes ".miraclecastrc"], [home, bytes ".miraclecast", bytes "config"], [home, bytes ".config", bytes "miraclecastrc"],
   [home, bytes ".config", bytes "miraclecast", bytes "config"], [bytes "/etc", bytes "miraclecastrc"], [bytes "/etc", bytes "miraclecast", bytes "config"]]

/-- The loop of `load_ini_file`, `src/shared/util.h:55-62`. -/
def firstFile (fs : List Byte → Option Ini) : List (List (List Byte)) → Option Ini
  | [] => none
  | p :: t => match fs (path p) with
    | some i => some i
    | none => firstFile fs t

/-- `load_ini_file`, `src/shared/util.h:36-65`; `fs` are the key files that can be loaded. -/
def loadIni (home : List Byte) (fs : List Byte → Option Ini) : Option Ini := firstFile fs (places home)

/-- How a program goes on after reading its settings. -/
inductive Parsed (α : Type) where
  | exit (status : Nat)
  | ok (s : α)
  deriving DecidableEq

/-! ### `miracle-wifid` -/

/-- An option of `miracle-wifid`, `src/wifi/wifid.c:536-553`; `bad` is what `getopt_long` complains about. -/
inductive WArg where
  | help | version | bad | logTime | logDateTime | useDev | lazyManaged | wpaSyslog
  | logLevel (v : List Byte) | iface (v : List Byte) | methods (v : List Byte) | wpaLevel (v : List Byte) | ipBinary (v : List Byte) | intent (v : List Byte) | driver (v : List Byte)
  deriving DecidableEq

/-- The variables `src/wifi/wifid.c:45-53`, `log_max_sev`, `src/shared/shl_log.c:88`, `log_date_time` and whether `log_init_time` was called. -/
structure WSet where
  logSev : Nat := 5
  wpaSev : Nat := 5
  iface : Option (List Byte) := none
  methods : Option (List Byte) := none
  driver : Option (List Byte) := none
  ipBinary : Option (List Byte) := none
  intent : Nat := 0
  syslog : Bool := false
  useDev : Bool := false
  lazy : Bool := false
  time : Bool := false
  dateTime : Bool := false
  deriving DecidableEq

/-- `load_ini_config`, `src/wifi/wifid.c:617-642`. -/
def wFile (f : Option Ini) (s : WSet) : WSet :=
  match f with
  | none => s
  | some f =>
    let g := f (bytes "wifid")
    let s := match g.get (bytes "log-level") with
      | some v => { s with logSev := Log.parseArg v }
      | none => s
    let s := { s with ipBinary := g.get (bytes "ip-binary"), lazy := g.bool (bytes "lazy-managed"), useDev := g.bool (bytes "use-dev"),
                      syslog := g.bool (bytes "wpa-syslog"), methods := g.get (bytes "config_methods"), intent := g.u64 (bytes "go-intent") % W32,
                      driver := g.get (bytes "driver-param") }
    match g.get (bytes "wpa-log-level") with
      | some v => { s with wpaSev := Log.parseArg v }
      | none => s

/-- The loop of `parse_argv`, `src/wifi/wifid.c:556-602`; `none`: `atoi` of a number that does not fit is undefined. -/
def wArgs : List WArg → WSet → Option (Parsed WSet)
  | [], s => some (.ok s)
  | a :: t, s => match a with
    | .help => some (.exit 0)
    | .version => some (.exit 0)
    | .bad => some (.exit 1)
    | .logTime => wArgs t { s with time := true }
    | .logDateTime => wArgs t { s with dateTime := true }
    | .useDev => wArgs t { s with useDev := true }
    | .lazyManaged => wArgs t { s with lazy := true }
    | .wpaSyslog => wArgs t { s with syslog := true }
    | .logLevel v => wArgs t { s with logSev := Log.parseArg v }
    | .iface v => wArgs t { s with iface := some v }
    | .methods v => wArgs t { s with methods := some v }
    | .wpaLevel v => wArgs t { s with wpaSev := Log.parseArg v }
    | .ipBinary v => wArgs t { s with ipBinary := some v }
    | .intent v => match atoi v with
      | none => none
      | some n => wArgs t { s with intent := Log.toUnsigned n }
    | .driver v => wArgs t { s with driver := some v }

/-- `main` of `miracle-wifid` up to `getuid`, `src/wifi/wifid.c:644-657`, with `parse_argv`, `:520-615`; `rest` are the words that are no options. -/
def wifid (file : Option Ini) (args : List WArg) (rest : List (List Byte)) : Option (Parsed WSet) :=
  (wArgs args (wFile file {})).map fun p => match p with
    | .exit n => .exit n
    | .ok s => if rest ≠ [] then .exit 1 else .ok s

/-- The settings as the daemon uses them (`Verif.Wifid`), `src/wifi/wifid.c:101-129`, `:257-275`. -/
def WSet.opts (s : WSet) (rely : Bool) (host : Option (List Byte)) : Wifid.Opts :=
  { rely := rely, iface := s.iface, lazy := s.lazy, host := host, methods := s.methods, driver := s.driver, intent := s.intent }

/-! ### `miracle-sinkctl` -/

/-- An option of `miracle-sinkctl`, `src/ctl/sinkctl.c:892-909`; the argument of `--res` is given by the numbers `sscanf` reads. -/
inductive SArg where
  | help | helpCommands | helpRes | version | bad | logTime | logDateTime | uibc
  | logLevel (v : List Byte) | journalLevel (v : List Byte) | gstDebug (v : List Byte) | audio (v : List Byte) | scale (v : List Byte) | res (v : List Nat) | port (v : List Byte)
  | player (v : List Byte)
  deriving DecidableEq

/-- The variables `src/ctl/sinkctl.c:69-85`, `cli_max_sev`, `src/ctl/ctl-cli.c:50`, `log_max_sev`, `src/shared/shl_log.c:88`, `gst_debug`, `:91`. -/
structure SSet where
  cliSev : Nat := 5
  logSev : Nat := 5
  gstDebug : Option (List Byte) := none
  scale : Option (List Byte) := none
  audio : Int := 1
  cea : Nat := 0x0001ffff
  vesa : Nat := 0x1fffffff
  hh : Nat := 0x00001fff
  port : Int := 0
  external : Bool := false
  player : Option (List Byte) := none
  uibc : Bool := false
  time : Bool := false
  dateTime : Bool := false
  ext : List (List Byte × List Byte) := []
  deriving DecidableEq

/-- `sscanf(optarg, "%x,%x,%x", …)`, `src/ctl/sinkctl.c:953-956`, by the numbers read. -/
def setRes (s : SSet) : List Nat → SSet
  | [] => s
  | [a] => { s with cea := a }
  | [a, b] => { s with cea := a, vesa := b }
  | a :: b :: c :: _ => { s with cea := a, vesa := b, hh := c }

/-- The keys `extends.*` of the file, `src/ctl/sinkctl.c:1035-1042`. -/
def extensions (g : Group) : List (List Byte × List Byte) :=
  g.filterMap fun x => if (bytes "extends.").isPrefixOf x.1 then some (x.1.drop 8, x.2) else none

/-- What `main`, `src/ctl/sinkctl.c:985-1045`, takes from the file; `none`: `atoi` of a number that does not fit is undefined. -/
def sFile (f : Option Ini) (s : SSet) : Option SSet :=
  match f with
  | none => some s
  | some f =>
    let g := f (bytes "sinkctl")
    let s := { s with player := g.get (bytes "external-player"), ext := extensions g }
    let s := if s.player.isSome then { s with external := true } else s
    let s := match g.get (bytes "log-journal-level") with
      | some v => { s with logSev := Log.parseArg v }
      | none => s
    let s := match g.get (bytes "log-level") with
      | some v => { s with cliSev := Log.parseArg v }
      | none => s
    match g.get (bytes "rstp-port") with
    | none => some s
    | some v => (atoi v).map fun n => { s with port := n }

/-- The loop of `parse_argv`, `src/ctl/sinkctl.c:917-970`. -/
def sArgs : List SArg → SSet → Option (Parsed SSet)
  | [], s => some (.ok s)
  | a :: t, s => match a with
    | .help => some (.exit 0)
    | .helpCommands => some (.exit 0)
    | .helpRes => some (.exit 0)
    | .version => some (.exit 0)
    | .bad => some (.exit 1)
    | .logTime => sArgs t { s with time := true }
    | .logDateTime => sArgs t { s with dateTime := true }
    | .uibc => sArgs t { s with uibc := true }
    | .logLevel v => sArgs t { s with cliSev := Log.parseArg v }
    | .journalLevel v => sArgs t { s with logSev := Log.parseArg v }
    | .gstDebug v => sArgs t { s with gstDebug := some v }
    | .audio v => match atoi v with
      | none => none
      | some n => sArgs t { s with audio := n }
    | .scale v => sArgs t { s with scale := some v }
    | .res v => sArgs t (setRes s v)
    | .port v => match atoi v with
      | none => none
      | some n => sArgs t { s with port := n }
    | .player v => sArgs t { s with external := true, player := some v }

/-- `parse_argv`, `src/ctl/sinkctl.c:876-973`: the assignments before the loop (`:912-915`) included. -/
def sParse (args : List SArg) (s : SSet) : Option (Parsed SSet) :=
  sArgs args { s with uibc := false, external := false, port := 7236 }

/-- `main` of `miracle-sinkctl` up to the connection to the bus, `src/ctl/sinkctl.c:975-1051`. -/
def sinkctl (file : Option Ini) (args : List SArg) : Option (Parsed SSet) := (sFile file {}).bind (sParse args)

/-- `g_strsplit(s, " ", -1)`. -/
def words : List Byte → List (List Byte)
  | [] => []
  | s => go s []
where
  /-- The rest of the text and the word so far. -/
  go : List Byte → List Byte → List (List Byte)
    | [], w => [w]
    | c :: t, w => if c = 32 then w :: go t [] else go t (w ++ [c])

/-- The words that are no options after the loop of `main` over `autocmd`, `src/ctl/sinkctl.c:1005-1025`.  Words of `autocmd` that begin with `-` would be options; they are
left out of the model by the hypotheses of its theorem. -/
def commands (file : Option Ini) (rest : List (List Byte)) : List (List Byte) :=
  match file with
  | none => rest
  | some f => match (f (bytes "sinkctl")).get (bytes "autocmd") with
    | none => rest
    | some v => rest ++ (words v).filter (fun w => w ≠ [])

/-! ### `miracle-wifictl` -/

/-- An option of `miracle-wifictl`, `src/ctl/wifictl.c:592-601`. -/
inductive CArg where
  | help | helpCommands | version | bad | logTime | logDateTime | logLevel (v : List Byte) | journalLevel (v : List Byte)
  deriving DecidableEq

/-- The variables set. -/
structure CSet where
  cliSev : Nat := 5
  logSev : Nat := 5
  time : Bool := false
  dateTime : Bool := false
  deriving DecidableEq

/-- What `main`, `src/ctl/wifictl.c:642-655`, takes from the file. -/
def cFile (f : Option Ini) (s : CSet) : CSet :=
  match f with
  | none => s
  | some f =>
    let g := f (bytes "wifictl")
    let s := match g.get (bytes "log-journal-level") with
      | some v => { s with logSev := Log.parseArg v }
      | none => s
    match g.get (bytes "log-level") with
      | some v => { s with cliSev := Log.parseArg v }
      | none => s

/-- The loop of `parse_argv`, `src/ctl/wifictl.c:604-629`. -/
def cArgs : List CArg → CSet → Parsed CSet
  | [], s => .ok s
  | a :: t, s => match a with
    | .help => .exit 0
    | .helpCommands => .exit 0
    | .version => .exit 0
    | .bad => .exit 1
    | .logTime => cArgs t { s with time := true }
    | .logDateTime => cArgs t { s with dateTime := true }
    | .logLevel v => cArgs t { s with cliSev := Log.parseArg v }
    | .journalLevel v => cArgs t { s with logSev := Log.parseArg v }

/-- `main` of `miracle-wifictl` up to the connection to the bus, `src/ctl/wifictl.c:634-661`. -/
def wifictl (file : Option Ini) (args : List CArg) : Parsed CSet := cArgs args (cFile file {})

/-! ### Programs that are started -/

/-- What `launch_player` uses of the state of the session: `uibc_enabled`, `target`, `uibc_port`, `hres` and `vres`. -/
structure Session where
  uibc : Bool
  target : List Byte
  uibcPort : Int
  hres : Int
  vres : Int

/-- `player` in `launch_player`, `src/ctl/sinkctl.c:499-505`. -/
def playerName (s : SSet) (x : Session) : Option (List Byte) :=
  if ¬ s.external then (if x.uibc then some (bytes "uibc-viewer") else some (bytes "miracle-gst")) else s.player

/-- `argv` of `launch_player`, `src/ctl/sinkctl.c:493-541`.  `none`: without a player, or more arguments than `argv` has room for with the final NULL. -/
def playerArgv (s : SSet) (x : Session) : Option (List (List Byte)) := (playerName s x).bind fun player =>
  let argv := [player]
  let argv := if x.uibc then argv ++ [x.target, decInt x.uibcPort] else argv
  let argv := match s.gstDebug with
    | some d => argv ++ [bytes "-d", d]
    | none => if 7 ≤ s.cliSev then argv ++ [bytes "-d", bytes "3"] else argv
  let argv := if s.audio ≠ 0 then argv ++ [bytes "-a"] else argv
  let argv := match s.scale with
    | some v => argv ++ [bytes "-s", v]
    | none => argv
  let argv := argv ++ [bytes "-p", decInt s.port]
  let argv := if x.hres ≠ 0 ∧ x.vres ≠ 0 then argv ++ [bytes "-r", decInt x.hres ++ [ch 'x'] ++ decInt x.vres] else argv
  if argv.length < 64 then some argv else none

/-- `argv` of `supplicant_run`, `src/wifi/wifid-supplicant.c:2424-2450`. -/
def wpasArgv (s : WSet) (binary conf ifname ctrl : List Byte) : List (List Byte) :=
  [binary] ++
  (if 7 ≤ s.wpaSev then [bytes "-dd"] else if 6 ≤ s.wpaSev then [bytes "-d"] else if s.wpaSev < 3 then [bytes "-qq"] else if s.wpaSev < 5 then [bytes "-q"] else []) ++
  [bytes "-c", conf, bytes "-C", bytes "/run/miracle/wifi", bytes "-i", ifname, bytes "-g", ctrl] ++
  (if s.syslog then [bytes "-s"] else [])

/-- What `stat` and `access` say about a path: `ENOENT` or `ENOTDIR`; another error; there is a file, which may be executed or not; there is a directory (which may be searched). -/
inductive Entry where
  | missing | fails | file (exec : Bool) | dir
  deriving DecidableEq

/-- `strtok_r(…, ":")` until it gives NULL: the words between colons that are not empty. -/
def tokens (s : List Byte) : List (List Byte) := go s []
where
  /-- The rest of the text and the word so far. -/
  go : List Byte → List Byte → List (List Byte)
    | [], w => if w = [] then [] else [w]
    | c :: t, w => if c = ch ':' then (if w = [] then go t [] else w :: go t []) else go t (w ++ [c])

/-- The loop of `supplicant_find`, `src/wifi/wifid-supplicant.c:2470-2494`. -/
def findIn (fs : List Byte → Entry) : List (List Byte) → Option (List Byte)
  | [] => none
  | d :: t => match fs (d ++ bytes "/wpa_supplicant") with
    | .missing => findIn fs t
    | .fails => none
    | .file true => some (d ++ bytes "/wpa_supplicant")
    | .file false => findIn fs t
    | .dir => some (d ++ bytes "/wpa_supplicant")

/-- `supplicant_find`, `src/wifi/wifid-supplicant.c:2456-2497`; `none` is an error. -/
def findWpas (pathVar : Option (List Byte)) (fs : List Byte → Entry) : Option (List Byte) :=
  match pathVar with
  | none => none
  | some p => findIn fs (tokens p)

end Verif.Settings
