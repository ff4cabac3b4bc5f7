import Verif.Model.Show
import Verif.Spec.Sinkctl
import Verif.Spec.Sink
import Verif.Spec.Settings
import Verif.Spec.Session
/-! # What the sink controller, its sink and its player should do together -/
namespace Verif.Show.Spec
open Verif.C
open Verif.Sinkctl (Act)

/-- The latest attempt to connect. -/
def latest (log : List Act) : Option Act := log.reverse.find? Sinkctl.isConnect

/-- The processes started. -/
def spawned (log : List Act) : List Nat := log.filterMap fun a => match a with
  | .spawn p => some p
  | _ => none

/-- The events of the sink are as the bus delivers them. -/
def Delivered : Ev → Prop
  | .sink e => Sink.Spec.Delivered e
  | _ => True

/-- What can be reached. -/
def Reached (st : Settings.SSet) (ext : List (List Byte × List Byte)) (mv : Rtsp.Moves) (E : Sinkctl.Env) (W : World) : Prop :=
  ∃ es, (∀ e ∈ es, Delivered e) ∧ run st mv E (start st ext) es = some W

/-- What the sink reports, other than what it sends and closes. -/
def reports (l : List Sink.Out) : List Sink.Out := l.filter fun o => match o with
  | .sent _ | .closed _ => false
  | _ => true

/-- A command line as the players read it: the name, for the built-in viewer the address and a port for remote input, then options, among them this port to listen on and this resolution. -/
def Tells (argv : List (List Byte)) (port : Int) (target : List Byte) (x y : Nat) : Prop :=
  ∃ name pre post, argv = name :: pre ++ post ∧ (pre = [] ∨ ∃ p : Int, pre = [target, decInt p]) ∧
    Settings.Spec.value (Settings.Spec.options Settings.Spec.playerTakes post) 'p' = some (decInt port) ∧
    Settings.Spec.value (Settings.Spec.options Settings.Spec.playerTakes post) 'r' = some (decInt x ++ bytes "x" ++ decInt y)

/-- A player is known: the built-in one, or the one that was chosen. -/
def HasPlayer (st : Settings.SSet) : Prop := st.external = true → st.player ≠ none

/-- A source that keeps to the order of the standard (C138): its messages `k`, with the URL `u`, the masks `f` and the session `w`, numbered from `ck`; they can be sent, and be received with `env`. -/
structure Source (cf : Sink.Cfg) (env : Rtsp.Env) (k : Session.Spec.Script) (u w : List Byte) (f : Nat × Nat × Nat) (ck : Nat) : Prop where
  accepts : ∀ log m, 0 ≤ (env.H log m).1
  orderly : Session.Spec.Orderly k u f w
  fits : Session.Spec.Fits cf k.m3.bs
  sendable : ∀ i ∈ k.items 0, Rtsp.Spec.Sendable i
  room : ∀ i ∈ k.items 0, Rtsp.Spec.headerCount i + 3 ≤ 64 ∨ ∀ n, 64 ≤ n → env.mv n = false
  numbers : ck + 4 < Rtsp.REMOTE

/-- The connection of the program `W` comes up and the source says its part, cut anyhow. The sink says its part and no more; one player is started, with the port and the resolution; the session stays. -/
def Plays (st : Settings.SSet) (ext : List (List Byte × List Byte)) (mv : Rtsp.Moves) (E : Sinkctl.Env) (W : World) (pid : Nat) (target : List Byte) (mvS : Rtsp.Moves) (env : Rtsp.Env) (k : Session.Spec.Script)
    (u w : List Byte) (f : Nat × Nat × Nat) (ck : Nat) : Prop :=
  ∃ ms, Rtsp.Spec.makeAll mvS ck (k.items 0) = some ms ∧ ∀ cs : List (List Byte), cs.flatten = Rtsp.Spec.stream ms →
    ∃ b W' L x y argv, Rtsp.reads env Rtsp.openBus cs = some (0, b) ∧
      run st mv E W (.sink (.io true false false true true) :: b.log.map fun m => .sink (Session.Spec.event m)) = some W' ∧ Reached st ext mv E W' ∧
      Session.Spec.Answers (cfg st ext) k.m3.bs L ∧ Wfd.Spec.Chosen f.1 f.2.1 f.2.2 x y ∧
      W'.side.sink.log = W.side.sink.log ++ .connected :: Session.Spec.expected (cfg st ext) 0 ck L u w x y ∧
      W'.side.players = W.side.players ++ [(pid, some argv)] ∧ Tells argv (cfg st ext).port target x y ∧
      W'.ctl.app.log = W.ctl.app.log ++ [.spawn pid] ∧ W'.ctl.app.pid = some pid ∧ W'.ctl.app.runPeer = W.ctl.app.runPeer ∧ W'.side.sink.connected = true

end Verif.Show.Spec
