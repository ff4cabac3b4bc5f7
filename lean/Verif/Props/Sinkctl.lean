import Verif.Proof.SinkctlFree
/-! # C57, C94–C98, C100: the sink controller -/
namespace Verif.Sinkctl
open Verif.C Verif.Mirror

/-- An outside where everything succeeds. -/
def fine : Env := { bus := fun _ => true, acc := fun _ => true, fork := fun n => some (1000 + n), cli := true }
/-- An outside where no connection is accepted. -/
def deaf : Env := { fine with acc := fun _ => false }

/-- The path of link 3. -/
def l3 : List Byte := bytes "/org/freedesktop/miracle/wifi/link/_33"
/-- The path of a peer on it. -/
def pA : List Byte := bytes "/org/freedesktop/miracle/wifi/peer/aa_3abb_403"

/-- What is said of link 3. -/
def props3 (managed : Bool) : Props :=
  [(bytes "InterfaceName", .s (bytes "wlan0")), (bytes "FriendlyName", .s []), (bytes "WfdSubelements", .s []), (bytes "Managed", .b managed)]
/-- Link 3 appears. -/
def link3 (managed : Bool) : Ev := .msg (.added l3 [(linkIf, props3 managed)])
/-- A peer appears. -/
def peerA : Ev := .msg (.added pA [(peerIf, [(bytes "FriendlyName", .s (bytes "tv")), (bytes "WfdSubelements", .s (bytes "00")), (bytes "Connected", .b false)])])
/-- It asks to be connected. -/
def asksA : Ev := .msg (.goNeg pA [] [])
/-- It is connected. -/
def connA : Ev := .msg (.changed pA peerIf [(bytes "Connected", .b true), (bytes "RemoteAddress", .s (bytes "10.0.0.2"))])
/-- The daemon scans. -/
def scans : Ev := .msg (.changed l3 linkIf [(bytes "P2PScanning", .b true)])

/-- A session for the examples. -/
def session : List Ev := [link3 true, .run (bytes "wlan0"), scans, peerA, asksA, connA, .sinkTimer, .up, .resolution]

theorem session_clean : ∀ e ∈ session, cleanEv e := by
  intro e he
  simp only [session, List.mem_cons, List.not_mem_nil, or_false] at he
  rcases he with rfl | rfl | rfl | rfl | rfl | rfl | rfl | rfl | rfl
  · refine ⟨by decide +kernel, fun _ => ⟨?_, ?_⟩⟩
    · exact ⟨props3 true, by decide +kernel, [], by decide +kernel⟩
    · exact ⟨props3 true, by decide +kernel, [], by decide +kernel⟩
  · trivial
  · intro h; exact absurd h (by decide +kernel)
  · refine ⟨by decide +kernel, fun h => absurd (by decide +kernel) h⟩
  · trivial
  · intro _ v hv
    rw [List.mem_cons, List.mem_cons] at hv
    rcases hv with hv | hv | hv
    · have : bytes "WfdSubelements" = bytes "Connected" := congrArg Prod.fst hv
      exact absurd this (by decide +kernel)
    · have : bytes "WfdSubelements" = bytes "RemoteAddress" := congrArg Prod.fst hv
      exact absurd this (by decide +kernel)
    · cases hv
  · trivial
  · trivial
  · trivial

/-! ### References -/

/-- **C57**, in part: for all outsides and all sequences of events whose messages announce an object's interfaces
once each, announce links with their `WfdSubelements` and `FriendlyName`, and never empty the `WfdSubelements` of a peer: no
pointer is followed that refers to nothing, and the link, running peer and pending peer the controller remembers exist. -/
theorem references_valid_partial (E : Env) (es : List Ev) (hc : ∀ e ∈ es, cleanEv e) : ∃ w, run E start es = some w ∧ Valid w := by
  obtain ⟨w, h1, h2⟩ := run_ok E es ok_start hc
  exact ⟨w, h1, h2.valid⟩

example : ∃ w, run fine start session = some w ∧ w.app.runLink = some 1 ∧ w.app.runPeer = some 2 ∧ isPeer w 1 2 :=
  ⟨_, rfl, by decide +kernel, by decide +kernel, ⟨_, List.mem_singleton.mpr rfl, by decide +kernel, _, List.mem_singleton.mpr rfl, by decide +kernel⟩⟩

/-- The peer's `WfdSubelements` become empty, and it is removed. -/
def vanish : List Ev := [.msg (.changed pA peerIf [(bytes "WfdSubelements", .s [])]), .msg (.removed pA)]

/-- **C57** fails otherwise: the peer of a session whose `WfdSubelements` become empty is forgotten when it is removed; the
timer of the session then follows the dangling pointer. -/
theorem dangling_session : (∃ w, run fine start ([link3 true, .run (bytes "3"), peerA, connA] ++ vanish) = some w ∧ w.app.runPeer = some 2 ∧ w.links.map (·.peers) = [[]]) ∧
    run fine start ([link3 true, .run (bytes "3"), peerA, connA] ++ vanish ++ [.sinkTimer]) = none :=
  ⟨⟨_, rfl, by decide +kernel, by decide +kernel⟩, by decide +kernel⟩

/-- … and so does the timer for a peer that asked to be connected. -/
theorem dangling_pending : run fine start ([link3 true, .run (bytes "3"), peerA, asksA] ++ vanish ++ [.scanTimer]) = none := by decide +kernel

/-- … also without a timer: the running peer's address is compared with that of a later peer only, and no new session can begin. -/
theorem stuck_session : ∃ w, run fine start ([link3 true, .run (bytes "3"), peerA, connA] ++ vanish ++ [peerA, connA]) = some w ∧ w.app.runPeer = some 2 ∧
    w.links.map (·.peers.map fun p => (p.id, p.connected)) = [[(3, true)]] :=
  ⟨_, rfl, by decide +kernel, by decide +kernel⟩

/-! ### Sessions -/

/-- **C94.** For all outsides and all sequences of events: sessions do not overlap; connections are tried and players started
only within a session, one player at a time and only after a connection was tried; only the player that was started is
killed; when a session ends its player was killed and its connection closed before.  What the controller remembers of the
session is what it did. -/
theorem session_discipline (E : Env) (es : List Ev) (w : S) (h : run E start es = some w) :
    ∃ s, Sess.all {} w.app.log = some s ∧ s.peer = w.app.runPeer ∧ s.player = w.app.pid ∧ (w.app.isOpen = true → s.opened = true) := by
  obtain ⟨s, h1, h2, h3, h4, -⟩ := (run_star (ses := true) es (fun _ _ _ => rfl) h .refl).keep prim_disc disc_start
  exact ⟨s, h1, h2, h3, h4⟩

example : ∃ w, run fine start (session ++ [.msg (.removed l3)]) = some w ∧
    w.app.log.filter (fun a => !plain a) = [.running 2, .connect (some (bytes "10.0.0.2")), .spawn 1006, .kill 1006, .close, .stopped 2] :=
  ⟨_, rfl, by decide +kernel⟩

/-! ### The end of the program -/

/-- **C95**, exactly when: after all clean events, ending the program is defined if and only if no session is running. -/
theorem exit_defined_partial (E : Env) (es : List Ev) (hc : ∀ e ∈ es, cleanEv e) (w : S) (h : run E start es = some w) :
    (∃ w', finish E w = some w') ↔ w.app.runPeer = none := by
  obtain ⟨w1, h1, h2⟩ := run_ok E es ok_start hc
  rw [h] at h1
  injection h1 with h1
  subst h1
  exact finish_iff E h2

/-- **C95** fails: ending the program during a session closes the sink after it was freed. -/
theorem exit_in_session : (run fine start session).bind (finish fine) = none := by decide +kernel

example : ∃ w, run fine start (session.take 4) = some w ∧ w.app.runPeer = none ∧ w.app.runLink = some 1 := ⟨_, rfl, by decide +kernel, by decide +kernel⟩

/-! ### Attempts -/

/-- **C96**, in part: if no connection is accepted, at most three are tried in a session, and the timer is armed for one second before the
first, two before the second and three before the third. -/
theorem three_attempts_partial (E : Env) (hE : ∀ n, E.acc n = false) (es : List Ev) (w : S) (h : run E start es = some w) :
    attempts w.app.log ≤ 3 ∧ ∀ t, w.app.sinkT = some t → t = attempts w.app.log + 1 ∧ t ≤ 3 := by
  have h0 : Att start.app := ⟨by decide, rfl, by simp [start]⟩
  obtain ⟨h1, -, h2⟩ := (run_star (ses := true) es (fun _ _ _ => rfl) h .refl).keep (prim_att hE) h0
  exact ⟨h1, fun t ht => ⟨(h2 t ht).1, (h2 t ht).2.2⟩⟩

example : ∃ w, run deaf start ([link3 true, .run (bytes "3"), peerA, connA] ++ List.replicate 9 .sinkTimer) = some w ∧ attempts w.app.log = 3 ∧ (∀ n, deaf.acc n = false) :=
  ⟨_, rfl, by decide +kernel, fun _ => rfl⟩

/-- A connection that is under way. -/
structure Busy (p : Peer) (w : S) : Prop where
  opened : w.app.isOpen = true
  conn : w.app.conn = false
  alive : w.app.alive = true
  run : w.app.runPeer = some p.id
  peer : peerAt w p.id = some p
  connected : p.connected = true
  addr : p.rem.isSome = true

theorem down_again {p : Peer} {w : S} (h : Busy p w) : ∃ w', step fine w .down = some w' ∧ Busy p w' ∧ w'.app.log = w.app.log ++ [.connect p.rem] := by
  have key : ∀ w : S, w.app.isOpen = false → w.app.alive = true → w.app.runPeer = some p.id → peerAt w p.id = some p →
      sinkFn fine w = some { w with app := { w.app with sinkT := none, isOpen := true, log := w.app.log ++ [.connect p.rem] } } := by
    intro w h1 h2 h3 h4
    unfold sinkFn
    simp only
    split
    · rename_i hn; rw [h3] at hn; cases hn
    · rename_i i hi
      rw [h3] at hi
      injection hi with hi
      subst hi
      have h4' : peerAt ({ w with app := { w.app with sinkT := none } } : S) p.id = some p := h4
      rw [h4']
      simp only [Option.bind_eq_bind, Option.bind_some]
      rw [if_neg (by simp [h.connected]), if_neg (by simp [h2]), if_neg (by simp [h1]), if_pos (by simp [fine, h.addr])]
      rfl
  refine ⟨{ w with app := { w.app with sinkT := none, isOpen := true, log := w.app.log ++ [.connect p.rem] } }, ?_, ⟨rfl, h.conn, h.alive, h.run, h.peer, h.connected, h.addr⟩, rfl⟩
  · simp only [step]
    rw [if_neg (by simp [h.opened]), if_pos (by simp [h.conn])]
    exact key { w with app := { w.app with isOpen := false } } rfl h.alive h.run h.peer

theorem down_many {p : Peer} (n : Nat) {w : S} (h : Busy p w) : ∃ w', run fine w (List.replicate n .down) = some w' ∧ attempts w'.app.log = attempts w.app.log + n := by
  induction n generalizing w with
  | zero => exact ⟨w, rfl, rfl⟩
  | succ n ih =>
    obtain ⟨w1, h1, h2, h3⟩ := down_again h
    obtain ⟨w2, h4, h5⟩ := ih h2
    refine ⟨w2, ?_, ?_⟩
    · rw [List.replicate_succ, run, h1]; exact h4
    · rw [h5, h3, attempts_connect]; omega

/-- The peer, connected. -/
def tv : Peer := { id := 2, l := 1, label := bytes "aa:bb@3", friendly := some (bytes "tv"), connected := true, rem := some (bytes "10.0.0.2"), wfd := some (bytes "00") }

/-- **C96** fails: when the connection is accepted but not established, it is tried again at once, any number of times, without
the timer. -/
theorem endless_attempts (n : Nat) : ∃ w, run fine start ([link3 true, .run (bytes "3"), peerA, connA, .sinkTimer] ++ List.replicate n .down) = some w ∧ attempts w.app.log = n + 1 := by
  obtain ⟨w, h1, p, h2, h3⟩ : ∃ w, run fine start [link3 true, .run (bytes "3"), peerA, connA, .sinkTimer] = some w ∧ ∃ p, Busy p w ∧ attempts w.app.log = 1 :=
    ⟨_, rfl, tv, ⟨by decide +kernel, by decide +kernel, by decide +kernel, by decide +kernel, by decide +kernel, by decide +kernel, by decide +kernel⟩, by decide +kernel⟩
  obtain ⟨w2, h4, h5⟩ := down_many n h2
  refine ⟨w2, ?_, by omega⟩
  have app : ∀ (a b : List Ev) (w : S), run fine w (a ++ b) = (run fine w a).bind fun w => run fine w b := by
    intro a b
    induction a with
    | nil => intro w; rfl
    | cons e a ih =>
      intro w
      rw [List.cons_append, run, run]
      cases step fine w e with
      | none => rfl
      | some w1 => exact ih w1
  rw [app, h1]
  exact h4

/-! ### The end of scanning -/

/-- **C98**, in part: ending the program with no peer running or pending stops, in order, the scans of exactly the links that
the controller started scanning and that are still scanning, and does nothing else. -/
theorem scans_stopped_partial (E : Env) (es : List Ev) (hc : ∀ e ∈ es, cleanEv e) (w : S) (h : run E start es = some w) (hr : w.app.runPeer = none) (hp : w.app.pending = none) :
    ∃ w', finish E w = some w' ∧ w'.app.log = w.app.log ++ (w.links.filter fun l => started E w.app.log l.id && l.scanning).map fun l => .scan l.id l.label false := by
  obtain ⟨w1, h1, h2⟩ := run_ok E es ok_start hc
  rw [h] at h1
  injection h1 with h1
  subst h1
  obtain ⟨w', h3⟩ := (finish_iff E h2).mpr hr
  refine ⟨w', h3, ?_⟩
  rw [finish_log E h2 hr hp h3]
  congr 2
  refine List.filter_congr fun l hl => ?_
  rw [(run_marks es marks_start h).mark l hl]

example : ∃ w, run fine start (session.take 4) = some w ∧ w.app.runPeer = none ∧ w.app.pending = none ∧
    (w.links.filter fun l => started fine w.app.log l.id && l.scanning).map (·.label) = [bytes "3"] := ⟨_, rfl, by decide +kernel, by decide +kernel, by decide +kernel⟩

/-- The daemon stopped scanning. -/
def quiet : Ev := .msg (.changed l3 linkIf [(bytes "P2PScanning", .b false)])

/-- **C98** fails: with a pending peer, ending the program starts scanning again. -/
theorem exit_scans : ∃ w w', run fine start [link3 true, .run (bytes "3"), peerA, scans, asksA, quiet] = some w ∧ finish fine w = some w' ∧
    w'.app.log = w.app.log ++ [.scan 1 (bytes "3") true] ∧ w'.links = [] :=
  ⟨_, _, rfl, rfl, by decide +kernel, by decide +kernel⟩

/-! ### Scanning again -/

/-- **C100**, in part: for all outsides, all sequences of events and all events after them: if the controller becomes free by the event (it starts on a link,
a session ends, a peer is given up or its group cannot be formed), then the link is scanning, or the controller asked the daemon to scan on it. -/
theorem resumes_partial (E : Env) (es : List Ev) (w : S) (h : run E start es = some w) (e : Ev) (w' : S) (hs : step E w e = some w') (i : Nat)
    (hn : ¬ FreeOn w.app i) (hf : FreeOn w'.app i) :
    (∀ l ∈ w'.links, l.id = i → l.scanning = true) ∨ ∃ t label, w'.app.log = w.app.log ++ t ∧ Act.scan i label true ∈ t := by
  have hF := step_free (run_base es free_start h) hs
  rcases hF.scan i hf with h1 | h1 | ⟨lb, h1⟩
  · exact absurd h1 hn
  · exact Or.inl h1
  · obtain ⟨t, ht⟩ := hF.base.log
    rw [ht, List.drop_left] at h1
    exact Or.inr ⟨t, lb, ht, h1⟩

/-- The peer goes. -/
def goneA : Ev := .msg (.removed pA)

example : ∃ w w', run fine start (session ++ [quiet]) = some w ∧ step fine w goneA = some w' ∧ w.app.runPeer = some 2 ∧ FreeOn w'.app 1 ∧
    w'.app.log = w.app.log ++ [.kill 1006, .close, .stopped 2, .scan 1 (bytes "3") true] := by
  refine ⟨_, _, rfl, rfl, ?_, ⟨?_, ?_, ?_⟩, ?_⟩ <;> decide +kernel

/-- **C100** fails while the controller is free: scanning that ends by itself, or a request that is refused, is not noticed. -/
theorem scan_lost : (∃ w w', run fine start [link3 true, .run (bytes "3"), scans] = some w ∧ step fine w quiet = some w' ∧ FreeOn w'.app 1 ∧ w'.links.map (·.scanning) = [false] ∧
      w'.app.log = w.app.log) ∧
    ∃ w, run { fine with bus := fun _ => false } start [link3 true, .run (bytes "3")] = some w ∧ FreeOn w.app 1 ∧ w.app.scanT = false ∧ w.app.sinkT = none := by
  refine ⟨⟨_, _, rfl, rfl, ⟨?_, ?_, ?_⟩, ?_, ?_⟩, _, rfl, ⟨?_, ?_, ?_⟩, ?_, ?_⟩ <;> decide +kernel

/-! ### Managed links -/

/-- Starting on a link. -/
theorem runOn_link {E : Env} {i j : Nat} {w w' : S} (h : runOn E i w = some w') (hj : w'.app.runLink = some j) : w.app.runLink = some j ∨ i = j := by
  unfold runOn at h
  split at h
  · injection h with h; subst h; exact Or.inl hj
  · simp only [Option.bind_eq_bind, Option.bind_eq_some_iff] at h
    obtain ⟨w2, h2, h3⟩ := h
    obtain ⟨-, t, e⟩ := setWfd_keep h2
    obtain ⟨-, t', e'⟩ := setScan_keep h3
    rw [e', e] at hj
    injection hj with hj
    exact Or.inr hj

/-- **C97**, in part: the commands `run` and `bind` start only on a link that was found under the name given and is managed. -/
theorem run_managed_partial (E : Env) (n : List Byte) (w w' : S) (i : Nat) (h : cmdRun E n w = some w' ∨ cmdBind E n w = some w') (hi : w'.app.runLink = some i) :
    w.app.runLink = some i ∨ ∃ l ∈ w.links, l.id = i ∧ l.managed = true ∧ w.searchLink n = some l := by
  rcases h with h | h
  · unfold cmdRun at h
    split at h
    · obtain ⟨-, -, rfl⟩ := Option.map_eq_some_iff.mp h
      exact Or.inl hi
    · split at h
      · injection h with h; subst h; exact Or.inl hi
      · rename_i l hl
        split at h
        · injection h with h; subst h; exact Or.inl hi
        · rename_i hm
          rcases runOn_link h hi with e | e
          · exact Or.inl e
          · exact Or.inr ⟨l, searchLink_mem hl, e, by simpa using hm, hl⟩
  · unfold cmdBind at h
    split at h
    · obtain ⟨-, -, rfl⟩ := Option.map_eq_some_iff.mp h
      exact Or.inl hi
    · have same : W.searchLink ({ w with app := { w.app with bound := some n } } : S) n = w.searchLink n := rfl
      simp only [same] at h
      split at h
      · injection h with h; subst h; exact Or.inl hi
      · rename_i l hl
        split at h
        · injection h with h; subst h; exact Or.inl hi
        · rename_i hm
          rcases runOn_link h hi with e | e
          · exact Or.inl e
          · exact Or.inr ⟨l, searchLink_mem hl, e, by simpa using hm, hl⟩

example : ∃ w w' , run fine start [link3 true] = some w ∧ cmdRun fine (bytes "WLAN0") w = some w' ∧ w'.app.runLink = some 1 := ⟨_, _, rfl, rfl, by decide +kernel⟩
example : ∃ w w', run fine start [link3 false] = some w ∧ cmdRun fine (bytes "wlan0") w = some w' ∧ w'.app.runLink = none := ⟨_, _, rfl, rfl, by decide +kernel⟩

/-- **C97** fails: a link that appears under the bound name is used although it is not managed. -/
theorem hotplug_unmanaged : ∃ w, run fine start [.bind (bytes "wlan0"), link3 false] = some w ∧ w.app.runLink = some 1 ∧ w.links.map (·.managed) = [false] :=
  ⟨_, rfl, by decide +kernel, by decide +kernel⟩

end Verif.Sinkctl
