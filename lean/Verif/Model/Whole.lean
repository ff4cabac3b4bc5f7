import Verif.Model.Phone
import Verif.Model.Show
/-! # Daemon, controller, sink and player

`miracle-wifid` and `miracle-sinkctl` together: `Model/Phone.lean` has the daemon with the controller, `Model/Show.lean` the controller with its sink and its player.

Simplification: what the controller does in one event of the daemon happens to the sink after that event (nothing the controller does in between reads the sink, `src/ctl/sinkctl.c:414-436, 619-760`). -/
namespace Verif.Whole

/-- All of it. -/
structure World where
  W : Phone.World
  side : Show.Side

/-- What can happen: a datagram of wpa_supplicant, a line or the end of a DHCP helper or the timer of the controller (`Phone.Ev`); something on the connection to the source. -/
inductive Ev
  | phone (e : Phone.Ev)
  | sink (e : Sink.Ev)

/-- One event; `none` is undefined behaviour. The daemon has no part in what happens on the connection to the source (`src/ctl/ctl-sink.c:452-540`). -/
def step (st : Settings.SSet) (mv : Rtsp.Moves) (jk : Nat → C.Byte) (env : Event.Env) (E : Sinkctl.Env) (V : World) : Ev → Option World
  | .phone e => (Phone.step jk env E V.W e).map fun W => ⟨W, Show.follow st E V.W.w.app.log.length V.side (W.w.app.log.drop V.W.w.app.log.length)⟩
  | .sink e => (Show.step st mv E ⟨V.W.w, V.side⟩ (.sink e)).map fun U => ⟨{ V.W with w := U.ctl }, U.side⟩

/-- Many. -/
def run (st : Settings.SSet) (mv : Rtsp.Moves) (jk : Nat → C.Byte) (env : Event.Env) (E : Sinkctl.Env) (V : World) : List Ev → Option World
  | [] => some V
  | e :: t => (step st mv jk env E V e).bind fun V => run st mv jk env E V t

end Verif.Whole
