import Verif.Props.Show
import Verif.Props.PhoneDown
/-!
# The picture ends when the connection to the device does: theorems

C147.
-/
namespace Verif.Show
open Verif.C Spec
open Verif.Settings (SSet)
open Verif.Rtsp (Moves)

/-- The program around the controller, when the session ends. -/
theorem picture_over {st : SSet} {ext : List (List Byte × List Byte)} {mv : Moves} (hp : Sink.Spec.PortOk (cfg st ext)) (hext : ext.length < 1000000) {jk : Nat → Byte} {env : Event.Env}
    {E : Sinkctl.Env} {W W' : Phone.World} {k : Side} (hR : Reached st ext mv E ⟨W.w, k⟩) {p : Nat} {y : P2p.Peer} {q : Mirror.Peer} {e : Phone.Ev}
    (hs : Phone.step jk env E W e = some W') (hE : Phone.Spec.Ended W W' p y q) :
    ∃ (ces : List Sinkctl.Ev) (k' : Side), run st mv E ⟨W.w, k⟩ (ces.map .ctl) = some ⟨W'.w, k'⟩ ∧ Reached st ext mv E ⟨W'.w, k'⟩ ∧ k'.sink.fd = none ∧ k'.sink.connected = false ∧
      k'.players = k.players ∧ ∃ did, W'.w.app.log = W.w.app.log ++ did ∧ ∀ n, W.w.app.pid = some n → Sinkctl.Act.kill n ∈ did := by
  obtain ⟨ces, k', h1, h2⟩ := phone_run st mv jk env E [e] (W := W) (W' := W') (by simp only [Phone.run, hs, Option.bind_some]) k
  have hR' : Reached st ext mv E ⟨W'.w, k'⟩ := reached_run hR (by
    intro e he
    obtain ⟨_, _, rfl⟩ := List.mem_map.mp he
    trivial) h2
  obtain ⟨⟨did, l1, tail, rfl, -⟩, -, -, -, -, y', q', me, -⟩ := hE
  obtain ⟨-, -, i3, -, -⟩ := in_step st ext mv E hp hext hR'
  obtain ⟨f1, f2, -⟩ := i3 me.idle
  refine ⟨ces, k', h2, hR', f1, f2, (ctl_players st mv E ces (reached_K hp hext hR) h2).2, _, l1, ?_⟩
  intro n hn
  simp [hn]

/-- **C147 (in part: the device owns the group).** wpa_supplicant reports that the group is gone: the player of the session is killed, the connection to the source closed. -/
theorem removal_ends_picture_partial (st : SSet) (ext : List (List Byte × List Byte)) (mv : Moves) (hp : Sink.Spec.PortOk (cfg st ext)) (hext : ext.length < 1000000) (jk : Nat → Byte)
    (env : Event.Env) (E : Sinkctl.Env) {W : Phone.World} {k : Side} (hR : Reached st ext mv E ⟨W.w, k⟩) {p : Nat} {y : P2p.Peer} {q : Mirror.Peer} {g : Nat} {x : P2p.Grp}
    (h : Phone.Spec.On W p y q g x) (ht : ∃ l ∈ W.w.links, l.id = q.l) (hn : Ask.Spec.Unquoted x.ifname ∧ x.ifname.length ≤ 1000000000) (ho : x.owner = some p) (hs : Phone.Spec.Sole W.s g p)
    {d : List Byte} {ps : List Event.Spec.Piece} (hl : Phone.Spec.Line d (bytes "P2P-GROUP-REMOVED") ps) (ha : Event.Spec.arg 0 ps = some x.ifname) :
    ∃ W', Phone.step jk env E W (.line d) = some W' ∧ ∃ (ces : List Sinkctl.Ev) (k' : Side), run st mv E ⟨W.w, k⟩ (ces.map .ctl) = some ⟨W'.w, k'⟩ ∧ Reached st ext mv E ⟨W'.w, k'⟩ ∧
      k'.sink.fd = none ∧ k'.sink.connected = false ∧ k'.players = k.players ∧ ∃ did, W'.w.app.log = W.w.app.log ++ did ∧ ∀ n, W.w.app.pid = some n → Sinkctl.Act.kill n ∈ did := by
  obtain ⟨W', -, e, -, -, hE, -⟩ := Phone.group_removed_ends_partial jk env E h ht hn ho hs hl ha
  exact ⟨W', e, picture_over hp hext hR e hE⟩

/-- **C147 (in part: the device owns the group).** The same when the DHCP client dies or closes its side of the socket. -/
theorem helper_gone_ends_picture_partial (st : SSet) (ext : List (List Byte × List Byte)) (mv : Moves) (hp : Sink.Spec.PortOk (cfg st ext)) (hext : ext.length < 1000000) (jk : Nat → Byte)
    (env : Event.Env) (E : Sinkctl.Env) {W : Phone.World} {k : Side} (hR : Reached st ext mv E ⟨W.w, k⟩) {p : Nat} {y : P2p.Peer} {q : Mirror.Peer} {g : Nat} {x : P2p.Grp}
    (h : Phone.Spec.On W p y q g x) (ht : ∃ l ∈ W.w.links, l.id = q.l) (hn : Ask.Spec.Unquoted x.ifname ∧ x.ifname.length ≤ 1000000000) (ho : x.owner = some p) (hs : Phone.Spec.Sole W.s g p) (died : Bool) :
    ∃ W', Phone.step jk env E W (.helperGone g died) = some W' ∧ ∃ (ces : List Sinkctl.Ev) (k' : Side), run st mv E ⟨W.w, k⟩ (ces.map .ctl) = some ⟨W'.w, k'⟩ ∧ Reached st ext mv E ⟨W'.w, k'⟩ ∧
      k'.sink.fd = none ∧ k'.sink.connected = false ∧ k'.players = k.players ∧ ∃ did, W'.w.app.log = W.w.app.log ++ did ∧ ∀ n, W.w.app.pid = some n → Sinkctl.Act.kill n ∈ did := by
  obtain ⟨W', -, e, -, -, hE, -⟩ := Phone.helper_gone_ends_partial jk env E h ht hn ho hs died
  exact ⟨W', e, picture_over hp hext hR e hE⟩

/-- **C147 (this device owns the group).** The same when the device leaves. -/
theorem leaving_ends_picture (st : SSet) (ext : List (List Byte × List Byte)) (mv : Moves) (hp : Sink.Spec.PortOk (cfg st ext)) (hext : ext.length < 1000000) (jk : Nat → Byte)
    (env : Event.Env) (E : Sinkctl.Env) {W : Phone.World} {k : Side} (hR : Reached st ext mv E ⟨W.w, k⟩) {p : Nat} {y : P2p.Peer} {q : Mirror.Peer} {g : Nat} {x : P2p.Grp}
    (h : Phone.Spec.On W p y q g x) (ht : ∃ l ∈ W.w.links, l.id = q.l) (hn : Ask.Spec.Unquoted x.ifname ∧ x.ifname.length ≤ 1000000000) (ho : x.owner = none)
    {d : List Byte} {ps : List Event.Spec.Piece} (hl : Phone.Spec.Line d (bytes "AP-STA-DISCONNECTED") ps) (ha : Event.Spec.get (bytes "p2p_dev_addr") ps = some y.mac) :
    ∃ W', Phone.step jk env E W (.line d) = some W' ∧ ∃ (ces : List Sinkctl.Ev) (k' : Side), run st mv E ⟨W.w, k⟩ (ces.map .ctl) = some ⟨W'.w, k'⟩ ∧ Reached st ext mv E ⟨W'.w, k'⟩ ∧
      k'.sink.fd = none ∧ k'.sink.connected = false ∧ k'.players = k.players ∧ ∃ did, W'.w.app.log = W.w.app.log ++ did ∧ ∀ n, W.w.app.pid = some n → Sinkctl.Act.kill n ∈ did := by
  obtain ⟨W', -, e, -, hE, -⟩ := Phone.leaving_ends jk env E h ht hn ho hl ha
  exact ⟨W', e, picture_over hp hext hR e hE⟩

end Verif.Show
