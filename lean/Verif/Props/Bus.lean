import Verif.Proof.BusCopy
/-! # C111 … C113: the copy of a controller and the daemon it listens to

`Model/Bus.lean` says what `miracle-wifid` sends, `Model/Mirror.lean` what the controllers make of it. The messages sent arrive, in their order. -/
namespace Verif.Daemon
open Verif.C Mirror

/-- A history for the examples: two devices, a peer that was found before its supplicant was ready, one found later, a connection, a scan. -/
def history : List Op :=
  [.base (.scan {} 0 ⟨3, some (bytes "wlan0"), false⟩ true), .base (.udev {} 0 2 ⟨7, some (bytes "wlan1"), false⟩ true),
   .base (.manage 3 true true), .found {} 0 3 (bytes "0:1:2:3:4:5") false none (some (bytes "0006")), .base (.started 3),
   .scan 3 true, .found {} 0 3 (bytes "AA:BB:CC:DD:EE:FF") true (some (bytes "tv")) none,
   .addr (bytes "aa:bb:cc:dd:ee:ff") 3 (some (bytes "p2p0")) (some (bytes "10.0.0.1")) (some (bytes "10.0.0.2")), .conn (bytes "aa:bb:cc:dd:ee:ff") 3 true,
   .base (.friendly 3 (bytes "den") true true true)]

/-- What the controller has after it. -/
def after (ops : List Op) : Option (D × W Unit) := (run {} true {} ops).bind fun d => (runMsgs marker start d.out).map fun w => (d, w)

/-- **C111**, without the values that are not always told (see below): at any time, a controller that has listened to the daemon from its start has exactly the links
and public peers of the daemon, each with its present names, sub-elements and connection. -/
theorem copy_of_daemon_partial {σ : Type} (H : Hooks σ) (hq : Quiet H) {o : Wifid.Opts} {zx : Bool} {ops : List Op} {d : D} (hd : run o zx {} ops = some d)
    (a : σ) (w : W σ) (hr : runMsgs H { app := a } d.out = some w) : Copied d w := by
  obtain ⟨hi, ms, e, hf⟩ := run_follows (A := fun _ _ => False) (S := fun _ => False) (Mg := fun _ _ => True) (fun _ => trivial) ops Wifid.inv_init follows_start hd
    (conditions (fun _ _ h => h.elim) (fun _ h => h.elim))
  have e : d.out = ms := e
  rw [← e] at hf
  exact (held H hq hr hi hf).copied

example : ∃ d w, after history = some (d, w) ∧ d.m.links.map (·.idx) = [7, 3] ∧ d.m.links.map (·.managed) = [true, true] ∧ d.out.length = 7 ∧
    (w.findLink (bytes "3")).map Link.view = some { ifindex := 3, ifname := some (bytes "wlan0"), friendly := some (bytes "den"), wfd := some [], scanning := true } ∧
    (w.findPeer (bytes "aa:bb:cc:dd:ee:ff@3")).map Peer.view = some ⟨some (bytes "aa:bb:cc:dd:ee:ff"), some (bytes "tv"), true, some (bytes "p2p0"), some (bytes "10.0.0.1"), some (bytes "10.0.0.2"), some []⟩ ∧
    (w.findPeer (bytes "00:01:02:03:04:05@3")).map (fun p => (p.friendly, p.wfd)) = some (some (bytes "<unknown>"), some (bytes "0006")) :=
  ⟨_, _, rfl, by decide +kernel, by decide +kernel, by decide +kernel, by decide +kernel, by decide +kernel, by decide +kernel⟩

example : ∃ d w, after (history ++ [.base (.gone 3 (bytes "aa:bb:cc:dd:ee:ff")), .base (.udev {} 0 0 ⟨7, none, false⟩ true)]) = some (d, w) ∧
    w.findPeer (bytes "aa:bb:cc:dd:ee:ff@3") = none ∧ (w.findPeer (bytes "00:01:02:03:04:05@3")).isSome ∧ w.links.map (·.label) = [bytes "3"] :=
  ⟨_, _, rfl, by decide +kernel, by decide +kernel, by decide +kernel⟩

/-- **C111** (addresses): the interface and addresses of a peer are right if they change only while the peer is not connected. -/
theorem copy_addresses_partial {σ : Type} (H : Hooks σ) (hq : Quiet H) {o : Wifid.Opts} {zx : Bool} {ops : List Op} {d : D} (hd : run o zx {} ops = some d)
    (a : σ) (w : W σ) (hr : runMsgs H { app := a } d.out = some w) (mac : List Byte) (i : Nat) (hp : Public d mac i) (hs : AddrSteady o zx {} ops mac i) :
    ∃ p, w.findPeer (peerLabel mac i) = some p ∧ addrShown (d.px mac i) p.view := by
  obtain ⟨hi, ms, e, hf⟩ := run_follows (A := fun m j => m = mac ∧ j = i) (S := fun _ => False) (Mg := fun _ _ => True) (fun _ => trivial) ops Wifid.inv_init follows_start hd
    (conditions (fun _ _ h => by rw [h.1, h.2]; exact hs) (fun _ h => h.elim))
  have e : d.out = ms := e
  rw [← e] at hf
  obtain ⟨p, h1, _, h2⟩ := (held H hq hr hi hf).peer mac i hp
  exact ⟨p, h1, h2 ⟨rfl, rfl⟩⟩

/-- **C111** (scanning): whether a link scans is right if its scans ended only because wpa_supplicant said so. -/
theorem copy_scanning_partial {σ : Type} (H : Hooks σ) (hq : Quiet H) {o : Wifid.Opts} {zx : Bool} {ops : List Op} {d : D} (hd : run o zx {} ops = some d)
    (a : σ) (w : W σ) (hr : runMsgs H { app := a } d.out = some w) (l : Wifid.Link) (hl : l ∈ d.m.links) (hs : StopTold o zx {} ops l.idx) :
    ∃ k, w.findLink (dec l.idx) = some k ∧ k.scanning = d.scan l.idx := by
  obtain ⟨hi, ms, e, hf⟩ := run_follows (A := fun _ _ => False) (S := fun j => j = l.idx) (Mg := fun _ _ => True) (fun _ => trivial) ops Wifid.inv_init follows_start hd
    (conditions (fun _ _ h => h.elim) (fun _ h => by rw [h]; exact hs))
  have e : d.out = ms := e
  rw [← e] at hf
  obtain ⟨k, h1, _, _, h2, _⟩ := (held H hq hr hi hf).link l hl
  exact ⟨k, h1, h2 rfl⟩

example : AddrSteady {} true {} history (bytes "aa:bb:cc:dd:ee:ff") 3 ∧ StopTold {} true {} (history ++ [.scan 3 false, .scan 3 true]) 3 :=
  ⟨okAddr_steady _ (by decide +kernel), okStop_told _ (by decide +kernel)⟩

/-- **C111 fails** for addresses that change while the peer is connected: nothing is sent, and the controller (the sink, which connects to the remote address) keeps
the old ones. -/
theorem addresses_stale : ∃ (ops : List Op) (d : D) (w : W Unit) (p : Peer), run {} true {} ops = some d ∧ runMsgs marker start d.out = some w ∧
    (d.px (bytes "aa:bb:cc:dd:ee:ff") 3).connected = true ∧ (d.px (bytes "aa:bb:cc:dd:ee:ff") 3).rem = some (bytes "10.0.0.9") ∧
    w.findPeer (peerLabel (bytes "aa:bb:cc:dd:ee:ff") 3) = some p ∧ p.rem = some (bytes "10.0.0.2") :=
  ⟨history ++ [.addr (bytes "aa:bb:cc:dd:ee:ff") 3 (some (bytes "p2p0")) (some (bytes "10.0.0.1")) (some (bytes "10.0.0.9"))], _, _, _, rfl, rfl, by decide +kernel, by decide +kernel, rfl, by decide +kernel⟩

/-- **C111 fails** for a scan that ends because the link is not managed any more or its supplicant fails: nothing is sent, and the link is shown as scanning for ever. -/
theorem scanning_stale : ∀ e ∈ [Wifid.Op.manage 3 false true, .lost 3], ∃ (d : D) (w : W Unit) (k : Link), run {} true {} (history ++ [.base e]) = some d ∧
    runMsgs marker start d.out = some w ∧ d.scan 3 = false ∧ w.findLink (dec 3) = some k ∧ k.scanning = true := by
  intro e he
  simp only [List.mem_cons, List.not_mem_nil, or_false] at he
  rcases he with rfl | rfl
  · exact ⟨_, _, _, rfl, rfl, by decide +kernel, rfl, by decide +kernel⟩
  · exact ⟨_, _, _, rfl, rfl, by decide +kernel, rfl, by decide +kernel⟩

/-- **C112** (at once): a controller that starts at any time and reads the existing objects has exactly the links and public peers of the daemon with all their values. -/
theorem join_exact {σ : Type} (H : Hooks σ) (hq : Quiet H) {o : Wifid.Opts} {zx : Bool} {ops : List Op} {d : D} (hd : run o zx {} ops = some d)
    (std : Ifaces) (hstd : ∀ q ∈ std, q.1 ≠ linkIf ∧ q.1 ≠ peerIf) (a : σ) (w : W σ) (hr : runMsgs H { app := a } [.objects (d.objects std)] = some w) :
    Copied d w ∧ (∀ l ∈ d.m.links, ∃ k, w.findLink (dec l.idx) = some k ∧ k.managed = l.managed ∧ k.scanning = d.scan l.idx) ∧
    ∀ mac i, Public d mac i → ∃ p, w.findPeer (peerLabel mac i) = some p ∧ addrShown (d.px mac i) p.view := by
  have hi := run_inv hd
  have hf := join_follows (A := fun _ _ => True) (S := fun _ => True) (Mg := fun i b => ∀ l ∈ d.m.links, l.idx = i → b = l.managed) hstd hi (by
    intro l hl l' hl' e
    have h1 := Wifid.find_of_mem hi.shape.nd hl
    have h2 := Wifid.find_of_mem hi.shape.nd hl'
    rw [e, h1] at h2
    injection h2 with h2
    rw [h2])
  have h := held (ms := [.objects (d.objects std)]) H hq hr hi hf
  refine ⟨h.copied, ?_, ?_⟩
  · intro l hl
    obtain ⟨k, h1, _, _, h2, h3⟩ := h.link l hl
    exact ⟨k, h1, h3 l hl rfl, h2 trivial⟩
  · intro mac i hp
    obtain ⟨p, h1, _, h2⟩ := h.peer mac i hp
    exact ⟨p, h1, h2 trivial⟩

/-- **C112** (later): and it stays so when it hears what is sent from then on. -/
theorem join_then_partial {σ : Type} (H : Hooks σ) (hq : Quiet H) {o : Wifid.Opts} {zx : Bool} {ops more : List Op} {d d' : D} (hd : run o zx {} ops = some d) (hd' : run o zx d more = some d')
    (std : Ifaces) (hstd : ∀ q ∈ std, q.1 ≠ linkIf ∧ q.1 ≠ peerIf) (a : σ) (w : W σ) (hr : runMsgs H { app := a } (.objects (d.objects std) :: d'.out.drop d.out.length) = some w) :
    Copied d' w ∧ (∀ mac i, Public d' mac i → AddrSteady o zx d more mac i → ∃ p, w.findPeer (peerLabel mac i) = some p ∧ addrShown (d'.px mac i) p.view) ∧
    ∀ l ∈ d'.m.links, StopTold o zx d more l.idx → ∃ k, w.findLink (dec l.idx) = some k ∧ k.scanning = d'.scan l.idx := by
  have hi := run_inv hd
  have hf := join_follows (A := fun m i => AddrSteady o zx d more m i) (S := fun i => StopTold o zx d more i) (Mg := fun _ _ => True) hstd hi (fun _ _ => trivial)
  obtain ⟨hi', ms, e, hf'⟩ := run_follows (fun _ => trivial) more hi hf hd' (conditions (fun _ _ h => h) (fun _ h => h))
  have hms : d'.out.drop d.out.length = ms := by rw [e]; simp
  rw [hms] at hr
  have h := held (ms := .objects (d.objects std) :: ms) H hq hr hi' hf'
  refine ⟨h.copied, ?_, ?_⟩
  · intro mac i hp hA
    obtain ⟨p, h1, _, h2⟩ := h.peer mac i hp
    exact ⟨p, h1, h2 hA⟩
  · intro l hl hS
    obtain ⟨k, h1, _, _, h2, _⟩ := h.link l hl
    exact ⟨k, h1, h2 hS⟩

/-- The interfaces of libsystemd itself. -/
def usual : Ifaces := [(bytes "org.freedesktop.DBus.Peer", []), (bytes "org.freedesktop.DBus.Introspectable", [])]

example : (∀ q ∈ usual, q.1 ≠ linkIf ∧ q.1 ≠ peerIf) ∧ ∃ d w, run {} true {} history = some d ∧ runMsgs marker start [.objects (d.objects usual)] = some w ∧ (d.objects usual).length = 5 ∧
    (w.findLink (bytes "3")).map Link.view = some ⟨3, some (bytes "wlan0"), some (bytes "den"), true, some [], true⟩ ∧
    (w.findPeer (bytes "aa:bb:cc:dd:ee:ff@3")).map (fun p => (p.connected, p.rem)) = some (true, some (bytes "10.0.0.2")) :=
  ⟨by decide +kernel, _, _, rfl, rfl, by decide +kernel, by decide +kernel, by decide +kernel⟩

example : ∃ d d' w, run {} true {} history = some d ∧ run {} true d [.conn (bytes "aa:bb:cc:dd:ee:ff") 3 false, .base (.gone 3 (bytes "00:01:02:03:04:05"))] = some d' ∧
    runMsgs marker start (.objects (d.objects usual) :: d'.out.drop d.out.length) = some w ∧ (d'.out.drop d.out.length).length = 2 ∧
    (w.findPeer (bytes "aa:bb:cc:dd:ee:ff@3")).map (fun p => (p.connected, p.rem)) = some (false, some []) ∧ (w.findPeer (bytes "00:01:02:03:04:05@3")).isNone :=
  ⟨_, _, _, rfl, rfl, rfl, by decide +kernel, by decide +kernel, by decide +kernel⟩

/-- **C113 fails**: whether a link is managed is never told. A controller that listens from the start shows every link as not managed, at all times, whatever the daemon does. -/
theorem managed_never_told {σ : Type} (H : Hooks σ) (hq : Quiet H) {o : Wifid.Opts} {zx : Bool} {ops : List Op} {d : D} (hd : run o zx {} ops = some d)
    (a : σ) (w : W σ) (hr : runMsgs H { app := a } d.out = some w) (l : Wifid.Link) (hl : l ∈ d.m.links) : ∃ k, w.findLink (dec l.idx) = some k ∧ k.managed = false := by
  obtain ⟨hi, ms, e, hf⟩ := run_follows (A := fun _ _ => False) (S := fun _ => False) (Mg := fun _ b => b = false) (fun _ => rfl) ops Wifid.inv_init follows_start hd
    (conditions (fun _ _ h => h.elim) (fun _ h => h.elim))
  have e : d.out = ms := e
  rw [← e] at hf
  obtain ⟨k, h1, _, _, _, h2⟩ := (held H hq hr hi hf).link l hl
  exact ⟨k, h1, h2⟩

/-- **C113**, for one that starts later: only links that were managed when it started are ever shown as managed. -/
theorem managed_only_joined {σ : Type} (H : Hooks σ) (hq : Quiet H) {o : Wifid.Opts} {zx : Bool} {ops more : List Op} {d d' : D} (hd : run o zx {} ops = some d) (hd' : run o zx d more = some d')
    (std : Ifaces) (hstd : ∀ q ∈ std, q.1 ≠ linkIf ∧ q.1 ≠ peerIf) (a : σ) (w : W σ) (hr : runMsgs H { app := a } (.objects (d.objects std) :: d'.out.drop d.out.length) = some w)
    (l : Wifid.Link) (hl : l ∈ d'.m.links) : ∃ k, w.findLink (dec l.idx) = some k ∧ (k.managed = true → ∃ l0 ∈ d.m.links, l0.idx = l.idx ∧ l0.managed = true) := by
  have hi := run_inv hd
  have hf := join_follows (A := fun _ _ => False) (S := fun _ => False) (Mg := fun i b => b = true → ∃ l0 ∈ d.m.links, l0.idx = i ∧ l0.managed = true) hstd hi (fun l hl h => ⟨l, hl, rfl, h⟩)
  obtain ⟨hi', ms, e, hf'⟩ := run_follows (fun _ h => nomatch h) more hi hf hd' (conditions (fun _ _ h => h.elim) (fun _ h => h.elim))
  have hms : d'.out.drop d.out.length = ms := by rw [e]; simp
  rw [hms] at hr
  obtain ⟨k, h1, _, _, _, h2⟩ := (held (ms := .objects (d.objects std) :: ms) H hq hr hi' hf').link l hl
  exact ⟨k, h1, h2⟩

example : ∃ d w, after history = some (d, w) ∧ d.m.links.map (·.managed) = [true, true] ∧ w.links.map (·.managed) = [false, false] :=
  ⟨_, _, rfl, by decide +kernel, by decide +kernel⟩

/-- One that starts later shows a link as managed that is not. -/
theorem managed_stale : ∃ (d d' : D) (w : W Unit), run {} true {} history = some d ∧ run {} true d [.base (.manage 3 false true)] = some d' ∧
    runMsgs marker start (.objects (d.objects usual) :: d'.out.drop d.out.length) = some w ∧ d'.m.links.map (fun l => (l.idx, l.managed)) = [(7, true), (3, false)] ∧
    w.links.map (fun l => (l.label, l.managed)) = [(bytes "7", true), (bytes "3", true)] :=
  ⟨_, _, _, rfl, rfl, rfl, by decide +kernel, by decide +kernel⟩

end Verif.Daemon
