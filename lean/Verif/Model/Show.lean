import Verif.Model.Sinkctl
import Verif.Model.Sink
import Verif.Model.Settings
/-! # The sink controller with its sink and its player

`src/ctl/sinkctl.c` with `src/ctl/ctl-sink.c`.  `Model/Sinkctl.lean` has the controller, with what it does to the sink as actions and what the sink
does to it as events of their own; `Model/Sink.lean` has the sink.  Here what the one does happens to the other, in one program, and players are started with their arguments.

Simplifications, for the whole file: a connection that fails leaves the sink as it was (a socket that is opened and closed again is not counted, and the address of a target that
was tried in vain is not stored, which nothing can see, since a player is started only over a connection); whether it fails is the
environment's answer, for everything that is needed including that the target is an address.  The callbacks of the sink are run after the function of the sink that makes them; nothing the
function does after the call changes what the callbacks read. -/
namespace Verif.Show
open Verif.C

/-- The sink: its own state, `s->target` (`src/ctl/ctl-sink.h:55`), and the players started, each with its process id and arguments (`none` if the child has no player to execute or overruns its
arguments). -/
structure Side where
  sink : Sink.St
  target : List Byte := []
  players : List (Nat × Option (List (List Byte))) := []

/-- The program. -/
structure World where
  ctl : Sinkctl.S
  side : Side

/-- What the player is told of the session, `src/ctl/sinkctl.c:493-541`. -/
def session (k : Side) : Settings.Session := ⟨k.sink.uibcEnabled, k.target, k.sink.uibcPort, k.sink.hres, k.sink.vres⟩

/-- What the controller's actions do: `ctl_sink_connect` and `ctl_sink_close` (`src/ctl/ctl-sink.c:578-612`), and `fork` with `launch_player` in the child (`src/ctl/sinkctl.c:451-541`); `n` is the number of things done before. -/
def follow1 (st : Settings.SSet) (E : Sinkctl.Env) (n : Nat) (k : Side) : Sinkctl.Act → Side
  | .connect t =>
    let ok := E.acc n && t.isSome
    { k with sink := (Sink.connect k.sink ok true true).2, target := if ok then t.getD [] else k.target }
  | .close => { k with sink := Sink.close k.sink }
  | .spawn pid => { k with players := k.players ++ [(pid, Settings.playerArgv st (session k))] }
  | _ => k

/-- All of them. -/
def follow (st : Settings.SSet) (E : Sinkctl.Env) (n : Nat) (k : Side) : List Sinkctl.Act → Side
  | [] => k
  | a :: as => follow st E (n + 1) (follow1 st E n k a) as

/-- Events happen to the controller, and what it does happens to the sink. -/
def advance (st : Settings.SSet) (E : Sinkctl.Env) (W : World) (es : List Sinkctl.Ev) : Option World :=
  (Sinkctl.run E W.ctl es).map fun c => ⟨c, follow st E W.ctl.app.log.length W.side (c.app.log.drop W.ctl.app.log.length)⟩

/-- The callback for something the sink reports, `src/ctl/sinkctl.c:585-607`. -/
def hears : Sink.Out → Option Sinkctl.Ev
  | .connected => some .up
  | .disconnected => some .down
  | .resolution _ _ => some .resolution
  | _ => none

/-- What can happen to the program. -/
inductive Ev
  /-- a message of the daemon, a command, a timer -/
  | ctl (e : Sinkctl.Ev)
  /-- something on the connection to the source -/
  | sink (e : Sink.Ev)

/-- Done by the controller, not from outside. -/
def own : Sink.Ev → Bool
  | .connect .. | .close => true
  | _ => false

/-- One event. What the two do to each other is no event. -/
def step (st : Settings.SSet) (mv : Rtsp.Moves) (E : Sinkctl.Env) (W : World) : Ev → Option World
  | .ctl e => if e.sink then some W else advance st E W [e]
  | .sink e =>
    if own e then some W
    else (Sink.step mv W.side.sink e).bind fun s =>
      advance st E { W with side := { W.side with sink := s } } ((s.log.drop W.side.sink.log.length).filterMap hears)

/-- A run. -/
def run (st : Settings.SSet) (mv : Rtsp.Moves) (E : Sinkctl.Env) (W : World) : List Ev → Option World
  | [] => some W
  | e :: es => (step st mv E W e).bind fun W => run st mv E W es

/-- The configuration of the sink: the globals and `protocol_extensions`, in the order `ext` of `g_hash_table_get_keys`; `src/ctl/ctl-sink.c:541-561`, `src/ctl/sinkctl.c:62-90`. -/
def cfg (st : Settings.SSet) (ext : List (List Byte × List Byte)) : Sink.Cfg := ⟨st.cea, st.vesa, st.hh, st.port, st.uibc, ext⟩

/-- The program before anything happens, with these settings. -/
def start (st : Settings.SSet) (ext : List (List Byte × List Byte)) : World := ⟨{ app := {} }, { sink := Sink.new (cfg st ext) }⟩

end Verif.Show
