import Verif.Proof.EventRead
import Verif.Props.P2p
/-! # What the events of wpa_supplicant make the daemon do (C132, C133) -/
namespace Verif.Event
open Verif.C
open Verif.Wpas (Msg recv)

/-- The message a line arrives as. -/
theorem line_message (jk : Nat → Byte) {d : List Byte} {x : Option (List Byte)} {level : Nat} {name : List Byte}
    {args : Option (List Byte)} (hl : d.length ≤ 16383)
    (hs : Wpas.Spec.Split d x (Wpas.Spec.eventText level name args)) (hn : Wpas.Spec.Plain name)
    (hlev : level ≤ 2147483647) :
    ∃ m, recv jk false d = some (some m) ∧ m.type = .event ∧ m.ifname = x ∧ m.name = some name ∧
      Wpas.Spec.args m = Qstr.Spec.tokens (args.getD []) := by
  obtain ⟨m, h1, h2, h3, _, h5, h6⟩ := Wpas.event_delivered jk d x level name args hl hs hn hlev
  refine ⟨m, h1, h2, h3, h5, ?_⟩
  unfold Wpas.Spec.args
  rw [h5, h6]
  rfl

/-- **C132.** For every line made of well-formed arguments — the SSID and the passphrase may be any bytes at all — the
daemon does exactly what the event says in terms of its arguments, and nothing if it says nothing.  On the global
socket this holds if the link uses the device socket's events from there and the line names an interface; otherwise
nothing happens. -/
theorem line_means (jk : Nat → Byte) (env : Env) (d : List Byte) (x : Option (List Byte)) (level : Nat) (name : List Byte)
    (ps : List Spec.Piece) (hl : d.length ≤ 16383) (hs : Wpas.Spec.Split d x (Wpas.Spec.eventText level name (Spec.args ps)))
    (hn : Wpas.Spec.Plain name) (hlev : level ≤ 2147483647) (hok : ∀ p ∈ ps, p.Ok) :
    ∃ m, recv jk false d = some (some m) ∧
      (∀ a, Spec.Says env x name ps a → onSocket env false .dev m = some a ∧ onSocket env true .dev m = some a) ∧
      ((∀ a, ¬ Spec.Says env x name ps a) →
        onSocket env false .dev m = some .nothing ∧ onSocket env true .dev m = some .nothing) ∧
      onSocket env false .global m = some .nothing ∧
      (x = none → onSocket env true .global m = some .nothing) ∧
      (x ≠ none → onSocket env true .global m = onSocket env true .dev m) := by
  obtain ⟨m, hr, ht, hi, hnm, ha⟩ := line_message jk hl hs hn hlev
  rw [tokens_args hok] at ha
  refine ⟨m, hr, ?_, ?_, rfl, ?_, ?_⟩
  · intro a h
    suffices onEvent env m = some a from ⟨this, this⟩
    by_cases hf : name = bytes "P2P-DEVICE-FOUND"
    · subst hf
      rw [← hi] at h
      generalize hg : bytes "P2P-DEVICE-FOUND" = nm at h
      cases h with
      | found _ a dev h h0 => exact found_read hr ht hnm (fun p hp => keyed_ok (hok p hp)) ha h h0
      | _ => exact absurd hg (by decide +kernel)
    · rw [← hi] at h
      exact says_read hr ht hnm (fun p hp => keyed_ok (hok p hp)) (l := []) (by rw [ha, List.append_nil]) h hf
  · intro h
    rw [← hi] at h
    have := says_nothing hr ht hnm (fun p hp => keyed_ok (hok p hp)) ha h
    exact ⟨this, this⟩
  · intro e
    unfold onSocket
    rw [hi, e]
    rfl
  · intro e
    unfold onSocket
    rw [hi]
    cases x with
    | none => exact absurd rfl e
    | some i => rfl

/-- What an event says is unique. -/
theorem says_unique {env : Env} {x : Option (List Byte)} {name : List Byte} {ps : List Spec.Piece} {a b : Act}
    (h : Spec.Says env x name ps a) (h' : Spec.Says env x name ps b) : a = b := by
  generalize hg : name = nm at h'
  cases h <;> cases h' <;> first | rfl | exact absurd hg (by decide +kernel) | simp_all

/-- The event of a new group as it is printed, with an SSID full of quotes. -/
example : Spec.Says {} (some (bytes "wlan0")) (bytes "P2P-GROUP-STARTED")
    [.word (bytes "p2p-wlan0-0"), .word (bytes "client"), .quoted (bytes "ssid") (bytes "DIRECT-x\" go_dev_addr=66:66:66:66:66:66 y\\"),
      .pair (bytes "freq") (bytes "2437"), .pair (bytes "go_dev_addr") (bytes "02:00:00:00:00:01")]
    (.op (.groupStarted (bytes "02:00:00:00:00:01") (bytes "p2p-wlan0-0") false true true)) :=
  .started _ _ _ (bytes "client") (by decide +kernel) (by decide +kernel) (by decide +kernel)

/-- The same through the reader of messages. -/
example : ((recv (fun _ => 0) false (bytes "IFNAME=wlan0 <3>P2P-GROUP-STARTED p2p-wlan0-0 client ssid=\"DIRECT-x\\\" go_dev_addr=66:66:66:66:66:66 y\\\\\" freq=2437 go_dev_addr=02:00:00:00:00:01")).bind
    fun o => o.bind fun m => onSocket {} true .global m) =
    some (.op (.groupStarted (bytes "02:00:00:00:00:01") (bytes "p2p-wlan0-0") false true true)) := by decide +kernel

/-- **C132 (the SSID cannot forge).** `P2P-GROUP-STARTED` as wpa_supplicant prints it: whatever bytes the SSID and the
passphrase are, and whatever follows, the group has the interface, the role and the owner that wpa_supplicant gave. -/
theorem ssid_cannot_forge (jk : Nat → Byte) (env : Env) (d : List Byte) (x : Option (List Byte)) (level : Nat)
    (ifname role freq mac ssid pass rest : List Byte) (hl : d.length ≤ 16383)
    (hs : Wpas.Spec.Split d x (Wpas.Spec.eventText level (bytes "P2P-GROUP-STARTED")
      (some (ifname ++ bytes " " ++ role ++ bytes " ssid=\"" ++ ssid.flatMap Spec.encByte ++ bytes "\" freq=" ++ freq ++
        bytes " passphrase=\"" ++ pass.flatMap Spec.encByte ++ bytes "\" go_dev_addr=" ++ mac ++ bytes " " ++ rest))))
    (hlev : level ≤ 2147483647) (h1 : ifname ≠ [] ∧ Spec.Simple ifname ∧ ch '=' ∉ ifname)
    (h2 : role ≠ [] ∧ Spec.Simple role ∧ ch '=' ∉ role) (h3 : Spec.Simple freq) (h4 : Spec.Simple mac) :
    ∃ m, recv jk false d = some (some m) ∧
      onSocket env true .dev m = some (.op (.groupStarted mac ifname (decide (role = bytes "GO")) env.spawn env.watch)) := by
  let ps : List Spec.Piece := [.word ifname, .word role, .quoted (bytes "ssid") ssid, .pair (bytes "freq") freq,
    .quoted (bytes "passphrase") pass, .pair (bytes "go_dev_addr") mac]
  have hok : ∀ p ∈ ps, p.Ok := by
    intro p hp
    simp only [ps, List.mem_cons, List.not_mem_nil, or_false] at hp
    rcases hp with rfl | rfl | rfl | rfl | rfl | rfl
    · exact h1
    · exact h2
    · exact ⟨by unfold Spec.Simple; decide +kernel, by decide⟩
    · exact ⟨by unfold Spec.Simple; decide +kernel, by decide, h3⟩
    · exact ⟨by unfold Spec.Simple; decide +kernel, by decide⟩
    · exact ⟨by unfold Spec.Simple; decide +kernel, by decide, h4⟩
  obtain ⟨m, hr, ht, hi, hnm, ha⟩ := line_message jk hl hs ⟨by decide, by decide +kernel⟩ hlev
  refine ⟨m, hr, ?_⟩
  have he : (ifname ++ bytes " " ++ role ++ bytes " ssid=\"" ++ ssid.flatMap Spec.encByte ++ bytes "\" freq=" ++ freq ++
        bytes " passphrase=\"" ++ pass.flatMap Spec.encByte ++ bytes "\" go_dev_addr=" ++ mac ++ bytes " " ++ rest) =
      (Spec.args ps).getD [] ++ ch ' ' :: rest := by
    have e1 : bytes " " = [ch ' '] := by decide
    have e2 : bytes " ssid=\"" = ch ' ' :: (bytes "ssid" ++ [ch '='] ++ [ch '"']) := by decide
    have e3 : bytes "\" freq=" = [ch '"'] ++ ch ' ' :: (bytes "freq" ++ [ch '=']) := by decide
    have e4 : bytes " passphrase=\"" = ch ' ' :: (bytes "passphrase" ++ [ch '='] ++ [ch '"']) := by decide
    have e5 : bytes "\" go_dev_addr=" = [ch '"'] ++ ch ' ' :: (bytes "go_dev_addr" ++ [ch '=']) := by decide
    rw [e1, e2, e3, e4, e5]
    simp only [ps, Spec.args, Spec.Piece.text, List.flatMap_cons, List.flatMap_nil, Option.getD_some, List.append_assoc,
      List.cons_append, List.nil_append, List.append_nil]
  rw [Option.getD_some, he, tokens_rest hok (by simp [ps])] at ha
  refine says_read hr ht hnm (fun p hp => keyed_ok (hok p hp)) ha ?_ (by decide +kernel)
  exact .started ps mac ifname role rfl rfl rfl

/-- **C132 (what is before cannot be changed).** Whatever bytes follow the arguments — in particular the name of a
device, which wpa_supplicant prints without escaping, with any quotes in it — the effect of all events but
`P2P-DEVICE-FOUND` is that of the arguments before; for `P2P-DEVICE-FOUND` the two addresses are. -/
theorem tail_cannot_forge (jk : Nat → Byte) (env : Env) (d : List Byte) (x : Option (List Byte)) (level : Nat)
    (name rest : List Byte) (ps : List Spec.Piece) (hl : d.length ≤ 16383)
    (hs : Wpas.Spec.Split d x (Wpas.Spec.eventText level name (some ((Spec.args ps).getD [] ++ ch ' ' :: rest))))
    (hn : Wpas.Spec.Plain name) (hlev : level ≤ 2147483647) (hok : ∀ p ∈ ps, p.Ok) (hne : ps ≠ []) (a : Act)
    (h : Spec.Says env x name ps a) :
    ∃ m b, recv jk false d = some (some m) ∧ onSocket env true .dev m = some b ∧
      Spec.SameAddress a b := by
  obtain ⟨m, hr, ht, hi, hnm, ha⟩ := line_message jk hl hs hn hlev
  rw [Option.getD_some, tokens_rest hok hne] at ha
  have hk := fun p hp => keyed_ok (hok p hp)
  rw [← hi] at h
  by_cases hf : name = bytes "P2P-DEVICE-FOUND"
  · subst hf
    generalize hg : bytes "P2P-DEVICE-FOUND" = nm at h
    cases h with
    | found _ a0 dev h h0 =>
      obtain ⟨n1, e1⟩ := lookup_ex (bytes "device_name") m
      obtain ⟨n2, e2⟩ := lookup_ex (bytes "name") m
      obtain ⟨n3, e3⟩ := lookup_ex (bytes "wfd_subelems") m
      obtain ⟨n4, e4⟩ := lookup_ex (bytes "wfd_dev_info") m
      refine ⟨m, .found { mac := a0, name := n1.or n2, wfd := n3.or n4 } dev, hr, ?_, _, rfl, rfl⟩
      show onEvent env m = _
      rw [onEvent_step ht hnm (by decide +kernel) rfl]
      unfold deviceFound need
      rw [dict_get hk ha (by decide) h, parsePeer_some hr e1 e2 e3 e4, arg_get ha h0]
      rfl
    | _ => exact absurd hg (by decide +kernel)
  · have := says_read hr ht hnm hk ha h hf
    refine ⟨m, a, hr, this, ?_⟩
    cases a with
    | found i dev => cases h; exact absurd rfl hf
    | _ => rfl

/-- The name of a device with a quote and an address in it, asking for a connection. -/
example : ((recv (fun _ => 0) false (bytes "<3>P2P-PROV-DISC-PBC-REQ 02:00:00:00:00:01 p2p_dev_addr=02:00:00:00:00:01 name='x' p2p_dev_addr=66:66:66:66:66:66 \"")).bind
    fun o => o.bind fun m => onSocket {} true .dev m) =
    some (.op (.provision (bytes "02:00:00:00:00:01") (bytes "pbc") none true)) := by decide +kernel

/-- **C132 (not so: what is after the name).** A device with a single quote in its name can add arguments of its own
to `P2P-DEVICE-FOUND`: here a device without Wi-Fi Display passes for one with it. -/
theorem name_forges : ((recv (fun _ => 0) false (bytes "<3>P2P-DEVICE-FOUND 02:00:00:00:00:01 p2p_dev_addr=02:00:00:00:00:01 pri_dev_type=10-0050F204-5 name='TV' wfd_dev_info=0x00111c440032 x='' config_methods=0x188")).bind
    fun o => o.bind fun m => onSocket {} true .dev m) =
    some (.found { mac := bytes "02:00:00:00:00:01", name := some (bytes "TV"), wfd := some (bytes "0x00111c440032") }
      (bytes "02:00:00:00:00:01")) := by decide +kernel

/-- **C132 (nothing is undefined).** Every datagram from wpa_supplicant that is read as a message is handled, on either
socket; a message that is no event, or whose name is none of the fourteen, does nothing. -/
theorem any_message (jk : Nat → Byte) (env : Env) (d : List Byte) (m : Msg) (h : recv jk false d = some (some m))
    (useDev : Bool) (k : Sock) :
    (∃ a, onSocket env useDev k m = some a) ∧
    ((m.type ≠ .event ∨ ∀ n ∈ ["P2P-FIND-STOPPED", "P2P-DEVICE-FOUND", "P2P-DEVICE-LOST", "P2P-PROV-DISC-PBC-REQ",
        "P2P-PROV-DISC-SHOW-PIN", "P2P-PROV-DISC-ENTER-PIN", "P2P-GO-NEG-SUCCESS", "P2P-GO-NEG-REQUEST",
        "P2P-GROUP-STARTED", "P2P-GROUP-REMOVED", "P2P-GO-NEG-FAILURE", "P2P-GROUP-FORMATION-FAILURE",
        "AP-STA-CONNECTED", "AP-STA-DISCONNECTED"], m.name ≠ some (bytes n)) →
      onSocket env useDev k m = some .nothing) := by
  constructor
  · cases k with
    | dev => exact onEvent_ex h env
    | global =>
      unfold onSocket
      by_cases hc : (useDev && m.ifname.isSome) = true
      · rw [if_pos hc]; exact onEvent_ex h env
      · rw [if_neg hc]; exact ⟨_, rfl⟩
  · intro hu
    have hn : onEvent env m = some .nothing := by
      unfold onEvent
      by_cases ht : m.type = .event
      · rw [if_neg (by simp [ht])]
        rcases hu with hu | hu
        · exact absurd ht hu
        · cases hnm : m.name with
          | none => rfl
          | some name =>
            simp only
            by_cases hi : name ∈ ignored
            · rw [if_pos hi]
            rw [if_neg hi]
            rcases Option.eq_none_or_eq_some ((table env).lookup name) with e | ⟨f, e⟩
            · rw [e]
            · exfalso
              have hm := lookup_mem e
              rw [hnm] at hu
              simp only [table, List.mem_cons, Prod.mk.injEq, List.not_mem_nil, or_false] at hm
              rcases hm with ⟨rfl, -⟩ | ⟨rfl, -⟩ | ⟨rfl, -⟩ | ⟨rfl, -⟩ | ⟨rfl, -⟩ | ⟨rfl, -⟩ | ⟨rfl, -⟩ | ⟨rfl, -⟩ |
                ⟨rfl, -⟩ | ⟨rfl, -⟩ | ⟨rfl, -⟩ | ⟨rfl, -⟩ | ⟨rfl, -⟩ | ⟨rfl, -⟩
              · exact hu "P2P-FIND-STOPPED" (by simp) rfl
              · exact hu "P2P-DEVICE-FOUND" (by simp) rfl
              · exact hu "P2P-DEVICE-LOST" (by simp) rfl
              · exact hu "P2P-PROV-DISC-PBC-REQ" (by simp) rfl
              · exact hu "P2P-PROV-DISC-SHOW-PIN" (by simp) rfl
              · exact hu "P2P-PROV-DISC-ENTER-PIN" (by simp) rfl
              · exact hu "P2P-GO-NEG-SUCCESS" (by simp) rfl
              · exact hu "P2P-GO-NEG-REQUEST" (by simp) rfl
              · exact hu "P2P-GROUP-STARTED" (by simp) rfl
              · exact hu "P2P-GROUP-REMOVED" (by simp) rfl
              · exact hu "P2P-GO-NEG-FAILURE" (by simp) rfl
              · exact hu "P2P-GROUP-FORMATION-FAILURE" (by simp) rfl
              · exact hu "AP-STA-CONNECTED" (by simp) rfl
              · exact hu "AP-STA-DISCONNECTED" (by simp) rfl
      · rw [if_pos (by simp [ht])]
    cases k with
    | dev => exact hn
    | global =>
      unfold onSocket
      by_cases hc : (useDev && m.ifname.isSome) = true
      · rw [if_pos hc]; exact hn
      · rw [if_neg hc]

/-- An event nobody waits for, and a name in small letters. -/
example : ((recv (fun _ => 0) false (bytes "<3>CTRL-EVENT-SCAN-RESULTS ")).bind fun o => o.bind fun m => onSocket {} true .dev m) =
    some .nothing ∧
    ((recv (fun _ => 0) false (bytes "<3>p2p-device-lost p2p_dev_addr=02:00:00:00:00:01")).bind
      fun o => o.bind fun m => onSocket {} true .dev m) = some .nothing := by decide +kernel

/-! ## The whole way: from the line to the peers -/

/-- **C133.** When wpa_supplicant says that it lost a device, the peer of that address is gone afterwards and all
others are untouched, in every state the daemon can be in while it listens. -/
theorem lost_line (jk : Nat → Byte) (env : Env) {zx : Bool} {ops : List P2p.Op} {s : P2p.S}
    (h : (P2p.start zx).run ops = some s) (hb : s.bus = true) {p : Nat} {y : P2p.Peer} (hp : s.pheap p = some y)
    (d : List Byte) (x : Option (List Byte)) (level : Nat) (hl : d.length ≤ 16383) (hlev : level ≤ 2147483647)
    (hm : Spec.Simple y.mac)
    (hs : Wpas.Spec.Split d x (Wpas.Spec.eventText level (bytes "P2P-DEVICE-LOST") (some (bytes "p2p_dev_addr=" ++ y.mac)))) :
    ∃ m a s', recv jk false d = some (some m) ∧ onSocket env true .dev m = some a ∧ a.run env s = some s' ∧
      s'.pheap p = none ∧ p ∉ s'.peers ∧ ∀ q, q ∈ s.peers → q ≠ p → q ∈ s'.peers := by
  have hok : ∀ q ∈ [Spec.Piece.pair (bytes "p2p_dev_addr") y.mac], q.Ok := by
    intro q hq
    rw [List.mem_singleton.mp hq]
    exact ⟨by unfold Spec.Simple; decide +kernel, by decide, hm⟩
  have he : bytes "p2p_dev_addr=" ++ y.mac = bytes "p2p_dev_addr" ++ [ch '='] ++ y.mac := by
    rw [show bytes "p2p_dev_addr=" = bytes "p2p_dev_addr" ++ [ch '='] by decide]
  rw [he] at hs
  obtain ⟨m, hr, hsay, -⟩ := line_means jk env d x level (bytes "P2P-DEVICE-LOST") [.pair (bytes "p2p_dev_addr") y.mac] hl
    (by simpa [Spec.args, Spec.Piece.text] using hs) ⟨by decide, by decide +kernel⟩ hlev hok
  have hI := P2p.reached h
  have hf := hI.g.findPeer hp rfl
  obtain ⟨s', a, b, c, _, _, d, _, e, _⟩ := hI.g.peerFree hp
  refine ⟨m, _, s', hr, (hsay _ (.lost _ y.mac (by simp [Spec.get, Spec.Piece.key, Spec.Piece.val]))).2, ?_, e, ?_, ?_⟩
  · simp [Act.run, P2p.S.step, hb, P2p.S.handle, hf, a]
  · rw [c]; exact fun hin => ((hI.g.i.pn.mem_erase_iff).mp hin).1 rfl
  · intro q hq hne
    rw [c]; exact (hI.g.i.pn.mem_erase_iff).mpr ⟨hne, hq⟩

/-- The lines that follow each other, on the device socket. -/
def feed (s : P2p.S) : List (List Byte) → Option P2p.S
  | [] => some s
  | d :: t => ((recv (fun _ => 0) false d).bind fun o => o.bind fun m => onSocket {} true .dev m).bind fun a =>
      (a.run {} s).bind fun s => feed s t

/-- A device is found and lost. -/
example : (((P2p.start false).run [.attached]).bind fun s => feed s
    [bytes "<3>P2P-DEVICE-FOUND 02:00:00:00:00:01 p2p_dev_addr=02:00:00:00:00:01 name='TV'"]).map
      (fun s => s.peers.length) = some 1 ∧
    (((P2p.start false).run [.attached]).bind fun s => feed s
    [bytes "<3>P2P-DEVICE-FOUND 02:00:00:00:00:01 p2p_dev_addr=02:00:00:00:00:01 name='TV'",
     bytes "<3>P2P-DEVICE-LOST p2p_dev_addr=02:00:00:00:00:01"]).map (fun s => s.peers.length) = some 0 := by
  decide +kernel

/-- **C133 (not so).** wpa_supplicant prints two addresses of a device it found: the one it was heard from and the one
of the device.  The daemon files the peer under the first but is told of the loss by the second: a device whose
addresses differ (one that owns a group) stays for ever. -/
theorem found_stays : (((P2p.start false).run [.attached]).bind fun s => feed s
    [bytes "<3>P2P-DEVICE-FOUND 06:00:00:00:00:01 p2p_dev_addr=02:00:00:00:00:01 name='TV'",
     bytes "<3>P2P-DEVICE-LOST p2p_dev_addr=02:00:00:00:00:01"]).map
      (fun s => s.peers.map fun p => (s.pheap p).map (·.mac)) = some [some (bytes "06:00:00:00:00:01")] := by
  decide +kernel

/-- **C133 (the two addresses).** In general: the peer that `P2P-DEVICE-FOUND` creates or updates has the address the
line begins with, while more is asked about the address of the device. -/
theorem found_line (jk : Nat → Byte) (env : Env) (d : List Byte) (x : Option (List Byte)) (level : Nat)
    (heard dev type name : List Byte) (more : List Spec.Piece) (hl : d.length ≤ 16383) (hlev : level ≤ 2147483647)
    (hs : Wpas.Spec.Split d x (Wpas.Spec.eventText level (bytes "P2P-DEVICE-FOUND") (Spec.args ([.word heard,
      .pair (bytes "p2p_dev_addr") dev, .pair (bytes "pri_dev_type") type, .named (bytes "name") name] ++ more))))
    (h1 : heard ≠ [] ∧ Spec.Simple heard ∧ ch '=' ∉ heard) (h2 : Spec.Simple dev) (h3 : Spec.Simple type)
    (h4 : ∀ c ∈ name, c ≠ 0 ∧ c ≠ ch '\'' ∧ c ≠ ch '\\') (h5 : ∀ p ∈ more, p.Ok)
    (h6 : ∀ p ∈ more, p.key ≠ some (bytes "device_name")) :
    ∃ m, recv jk false d = some (some m) ∧ onSocket env true .dev m = some (.found
      { mac := heard, name := some name,
        wfd := (Spec.get (bytes "wfd_subelems") more).or (Spec.get (bytes "wfd_dev_info") more) } dev) := by
  obtain ⟨m, hr, hsay, -⟩ := line_means jk env d x level _ _ hl hs ⟨by decide, by decide +kernel⟩ hlev (by
    intro p hp
    simp only [List.cons_append, List.nil_append, List.mem_cons] at hp
    rcases hp with rfl | rfl | rfl | rfl | hp
    · exact h1
    · exact ⟨by unfold Spec.Simple; decide +kernel, by decide, h2⟩
    · exact ⟨by unfold Spec.Simple; decide +kernel, by decide, h3⟩
    · exact ⟨by unfold Spec.Simple; decide +kernel, by decide, h4⟩
    · exact h5 p hp)
  refine ⟨m, hr, ?_⟩
  rw [(hsay _ (.found _ heard dev rfl rfl)).2]
  have hnone : Spec.get (bytes "device_name") more = none := by
    unfold Spec.get
    rw [Option.map_eq_none_iff, List.find?_eq_none]
    intro p hp
    simpa using h6 p hp
  have e : ∀ k, k ≠ bytes "p2p_dev_addr" → k ≠ bytes "pri_dev_type" → k ≠ bytes "name" →
      Spec.get k ([.word heard, .pair (bytes "p2p_dev_addr") dev, .pair (bytes "pri_dev_type") type,
        .named (bytes "name") name] ++ more) = Spec.get k more := by
    intro k n1 n2 n3
    have q : ∀ k', k ≠ k' → (some k' == some k) = false := fun k' h =>
      beq_eq_false_iff_ne.mpr fun e => h (Option.some.inj e).symm
    simp only [Spec.get, List.cons_append, List.nil_append, List.find?_cons, Spec.Piece.key, q _ n1, q _ n2, q _ n3,
      show ((none : Option (List Byte)) == some k) = false from rfl]
  have e' : Spec.get (bytes "name") ([.word heard, .pair (bytes "p2p_dev_addr") dev, .pair (bytes "pri_dev_type") type,
        .named (bytes "name") name] ++ more) = some name := rfl
  unfold Spec.info
  rw [e _ (by decide) (by decide) (by decide), hnone, e', e _ (by decide) (by decide) (by decide),
    e _ (by decide) (by decide) (by decide)]
  rfl

/-! ## The answer to `P2P_PEER` -/

theorem takeWhile_self {p : Byte → Bool} : ∀ {l : List Byte}, l.takeWhile p = l ↔ ∀ c ∈ l, p c = true
  | [] => by simp
  | c :: t => by
    by_cases h : p c = true
    · rw [List.takeWhile_cons_of_pos h, List.cons.injEq, takeWhile_self]
      simp [h]
    · rw [List.takeWhile_cons_of_neg h]
      simp [h]

theorem pieces_cut (l t : List Byte) (h : (10 : Byte) ∉ l) :
    Str.Spec.pieces (· = 10) (l ++ 10 :: t) = l :: Str.Spec.pieces (· = 10) t := by
  induction l with
  | nil => simp [Str.Spec.pieces]
  | cons c l ih =>
    have hc : c ≠ 10 := fun e => h (by simp [e])
    rw [List.cons_append, Str.Spec.pieces, if_neg (by simpa using hc), ih (fun hm => h (by simp [hm]))]

theorem line_whole {p : Spec.Piece} (h : p.Line) :
    p.text = p.whole ∧ p.whole ≠ [] ∧ (10 : Byte) ∉ p.whole ∧ p.whole.takeWhile (· ≠ 0) = p.whole := by
  have key : ∀ w : List Byte, (∀ c ∈ w, c ≠ 0 ∧ c ≠ 10) → (10 : Byte) ∉ w ∧ w.takeWhile (· ≠ 0) = w := by
    intro w hw
    refine ⟨fun hm => (hw _ hm).2 rfl, ?_⟩
    rw [takeWhile_self]
    intro c hc
    simpa using (hw c hc).1
  cases p with
  | word w => exact ⟨rfl, h.1, key _ h.2.1⟩
  | pair k v =>
    refine ⟨rfl, by simp [Spec.Piece.whole], key _ ?_⟩
    intro c hc
    simp only [Spec.Piece.whole, Spec.Piece.val, List.mem_append, List.mem_singleton] at hc
    rcases hc with (hc | rfl) | hc
    · exact h.1 c (by simp [hc])
    · decide
    · exact h.1 c (by simp [hc])
  | quoted k v => exact h.elim
  | named k v => exact h.elim

theorem reply_tokens : ∀ {ps : List Spec.Piece}, (∀ p ∈ ps, p.Line) →
    (Str.Spec.tokens (· = 10) (Spec.reply ps)).map (·.takeWhile (· ≠ 0)) = ps.map Spec.Piece.whole
  | [], _ => by decide
  | p :: t, h => by
    obtain ⟨e, hne, h10, ht⟩ := line_whole (h p (by simp))
    have ih := reply_tokens (ps := t) fun x hx => h x (by simp [hx])
    unfold Str.Spec.tokens at ih ⊢
    have : Spec.reply (p :: t) = p.whole ++ 10 :: Spec.reply t := by
      unfold Spec.reply
      rw [List.flatMap_cons, e, List.append_assoc]
      rfl
    rw [this, pieces_cut _ _ h10, List.filter_cons_of_pos (by simpa using hne), List.map_cons, List.map_cons, ih, ht]

/-- **C133 (the report).** The answer to `P2P_PEER` is read line by line: the address is the first line, the name and
the Wi-Fi Display elements are the values of the first lines with these keys, whatever bytes but newline and NUL they
are made of — quotes and blanks included.  The answer `FAIL` does nothing. -/
theorem peer_report (jk : Nat → Byte) (mac : List Byte) (ps : List Spec.Piece)
    (hl : (Spec.reply (.word mac :: ps)).length ≤ 16383) (hm : Spec.Piece.Line (.word mac)) (hok : ∀ p ∈ ps, p.Line)
    (h1 : mac.head? ≠ some (ch '<')) (h3 : ps ≠ [] ∨ mac ≠ bytes "FAIL") :
    ∃ m, recv jk false (Spec.reply (.word mac :: ps)) = some (some m) ∧
      onReply m = some (.report (Spec.info mac ps)) := by
  have hall : ∀ p ∈ Spec.Piece.word mac :: ps, p.Line := by
    intro p hp
    rcases List.mem_cons.mp hp with rfl | hp
    · exact hm
    · exact hok p hp
  have hne := hm.1
  obtain ⟨c, t, hc⟩ : ∃ c t, mac = c :: t := by
    cases mac with
    | nil => exact absurd rfl hne
    | cons c t => exact ⟨c, t, rfl⟩
  have hrep : Spec.reply (.word mac :: ps) = mac ++ 10 :: Spec.reply ps := by
    unfold Spec.reply
    rw [List.flatMap_cons]
    simp [Spec.Piece.text]
  have hnoif : ¬ bytes "IFNAME=" <+: Spec.reply (.word mac :: ps) := by
    rw [hrep]
    intro hp
    have hmem : ∀ (k m t : List Byte), (10 : Byte) ∉ k → k <+: m ++ 10 :: t → k <+: m := by
      intro k
      induction k with
      | nil => intro m t _ _; exact List.nil_prefix
      | cons c k ih =>
        intro m t hk hp
        cases m with
        | nil =>
          rw [List.nil_append, List.cons_prefix_cons] at hp
          exact absurd (by simp [hp.1]) hk
        | cons e m =>
          rw [List.cons_append, List.cons_prefix_cons] at hp
          rw [List.cons_prefix_cons]
          exact ⟨hp.1, ih m t (fun h => hk (by simp [h])) hp.2⟩
    have := (hmem _ _ _ (by decide) hp).subset (show ch '=' ∈ bytes "IFNAME=" by decide)
    exact hm.2.2 this
  obtain ⟨m, hr, ht, _, hnm, ha⟩ := Wpas.reply_delivered jk (Spec.reply (.word mac :: ps)) none _
    (by rw [hrep, hc]; simp) hl (.plain _ hnoif) (by rw [hrep, hc]; rw [hc] at h1; simpa using h1)
  have hargs : Wpas.Spec.args m = (Spec.Piece.word mac :: ps).map Spec.Piece.whole := by
    unfold Wpas.Spec.args
    rw [hnm]
    simp only
    rw [ha, reply_tokens hall]
  refine ⟨m, hr, ?_⟩
  have hraw : m.raw = (Spec.reply (.word mac :: ps)).takeWhile (· ≠ 0) ++ [0] := by
    unfold recv at hr
    rw [if_neg (by rw [hrep, hc]; simp), List.take_of_length_le hl] at hr
    obtain ⟨n, x, mo, as, rfl, _⟩ := Wpas.parse_some hr
    rfl
  have hz : (Spec.reply (.word mac :: ps)).takeWhile (· ≠ 0) = Spec.reply (.word mac :: ps) := by
    rw [takeWhile_self]
    intro c hc
    unfold Spec.reply at hc
    rw [List.mem_flatMap] at hc
    obtain ⟨p, hp, hc⟩ := hc
    obtain ⟨e, _, _, e0⟩ := line_whole (hall p hp)
    rw [e, List.mem_append] at hc
    rcases hc with hc | hc
    · rw [takeWhile_self] at e0
      exact e0 c hc
    · rw [List.mem_singleton.mp hc]; decide
  unfold onReply
  rw [if_neg, parsePeer_pieces hr (fun p hp => keyed_line (hall p hp)) hargs]
  · have e : ∀ k, Spec.get k (.word mac :: ps) = Spec.get k ps := by
      intro k
      unfold Spec.get
      rw [List.find?_cons, show ((Spec.Piece.word mac).key == some k) = false from rfl]
    show some (Act.report (Spec.info mac (.word mac :: ps))) = _
    unfold Spec.info
    simp only [e]
  · rintro ⟨-, e⟩
    rw [hraw, hz, List.append_cancel_right_eq, hrep, show bytes "FAIL\n" = bytes "FAIL" ++ 10 :: [] by decide] at e
    have e' := congrArg (Str.Spec.pieces (· = 10)) e
    rw [pieces_cut _ _ (fun hm' => (hm.2.1 _ hm').2 rfl), pieces_cut _ _ (by decide)] at e'
    have hmac := (List.cons.inj e').1
    rcases h3 with h3 | h3
    · subst hmac
      have : Spec.reply ps = [] := by simpa using e
      cases ps with
      | nil => exact h3 rfl
      | cons p t => simp [Spec.reply] at this
    · exact h3 hmac

/-- A report with a quote in the name. -/
example : ((recv (fun _ => 0) false (bytes "02:00:00:00:00:01\npri_dev_type=10-0050F204-5\ndevice_name=Jo's \"TV\"\nwfd_subelems=000006\n")).bind
    fun o => o.bind onReply) =
    some (.report { mac := bytes "02:00:00:00:00:01", name := some (bytes "Jo's \"TV\""), wfd := some (bytes "000006") }) ∧
    ((recv (fun _ => 0) false (bytes "FAIL\n")).bind fun o => o.bind onReply) = some .nothing := by decide +kernel

/-- **C133 (not so: other failures).** Only the exact answer `FAIL` is taken for a failure: any other error text of
wpa_supplicant is filed as a peer with that text for an address. -/
theorem unknown_command_is_a_peer : ((recv (fun _ => 0) false (bytes "UNKNOWN COMMAND\n")).bind fun o => o.bind onReply) =
    some (.report { mac := bytes "UNKNOWN COMMAND", name := none, wfd := none }) := by decide +kernel

end Verif.Event
