import Verif.Proof.WifictlRun
import Verif.Props.Mirror
/-! # The controller of the wifi daemon: properties

`run E start es = some w`: the events `es` (messages from the daemon, typed lines) led to `w`, without undefined behaviour.  `after E es` is what
somebody knows who has heard the same messages and seen the requests of the controller and whether they were granted. -/
namespace Verif.Wifictl
open Verif.C Verif.Mirror

/-! ### For the examples -/

/-- All requests succeed. -/
def fine : Env := ⟨fun _ => 0⟩
/-- All requests fail. -/
def broken : Env := ⟨fun _ => -5⟩
/-- What is said of link 3. -/
def props3 : Props := [(bytes "InterfaceName", .s (bytes "wlan0")), (bytes "FriendlyName", .s (bytes "desk")), (bytes "WfdSubelements", .s []), (bytes "Managed", .b true)]
/-- Link 3 and a peer on it, said in full. -/
def hello : Msg := .objects [
  (l3, [(linkIf, props3)]),
  (pA, [(peerIf, [(bytes "FriendlyName", .s (bytes "tv"))])])]
/-- The words of a line. -/
def ws (l : List String) : Ev := .line (l.map bytes)

/-! ### C101 -/

/-- **C101.** After any events: a message makes the controller ask and show nothing; a line makes it ask or show at most one thing, and that fits what is
known from the messages and from its own granted requests.  So every request names an object that exists; scanning is only asked for, and peers are only
connected and disconnected, on managed links; a property is only set to a value it does not have; and what `list` and `show` print is what the daemon said. -/
theorem requests_fit (E : Env) (es : List Ev) (w : S) (hr : run E start es = some w) (e : Ev) (w' : S) (hs : step E w e = some w') :
    (∀ m, e = .msg m → w'.app.log = w.app.log) ∧ (w'.app.log = w.app.log ∨ ∃ a, w'.app.log = w.app.log ++ [a] ∧ fits (after E es).known a) := by
  have hI := run_inv es inv_start hr
  cases e with
  | msg m =>
    obtain ⟨⟨r, w2⟩, h1, rfl⟩ := Option.map_eq_some_iff.mp hs
    have := (hooks_log w.app.log).receive h1 rfl
    exact ⟨fun _ _ => this, Or.inl this⟩
  | line words =>
    obtain ⟨⟨r, w2⟩, h1, rfl⟩ := Option.map_eq_some_iff.mp hs
    refine ⟨(fun _ e => nomatch e), ?_⟩
    rcases command_done hI h1 with ⟨h, -⟩ | ⟨a, h, hf, -⟩
    · exact Or.inl h
    · exact Or.inr ⟨a, h, hf⟩

/-- **C101**, the copy: under every label it holds what is known; `Managed` is what was last said or last granted. -/
theorem copy_agrees (E : Env) (es : List Ev) (w : S) (hr : run E start es = some w) :
    (∀ label, label ≠ [] → (w.findLink label).map Link.view = (after E es).known.link (key label)) ∧
    (∀ label, (w.findPeer label).map Peer.view = (after E es).known.peer (key label)) :=
  have h := (run_inv es inv_start hr).rel
  ⟨fun _ hl => h.findLink hl, h.findPeer⟩

/-- What the controller did in these events. -/
def did (E : Env) (es : List Ev) : Option (List Act) := (run E start es).map (·.app.log)

example : did fine [.msg hello, ws ["p2p-scan", "wlan0"], ws ["connect", "tv", "pbc"], ws ["set-managed", "desk", "no"], ws ["connect", "tv"], ws ["p2p-scan", "3", "stop"]] =
    some [.set l3 (bytes "P2PScanning") (.b true), .call pA (bytes "Connect") [bytes "pbc", []], .set l3 (bytes "Managed") (.b false)] := by decide +kernel

example : did fine [.msg hello, ws ["list"], ws ["show", "tv"]] = some [.tables [[bytes "3", bytes "wlan0", bytes "desk", bytes "yes"]] [[bytes "3", bytes "aa:bb@3", bytes "tv", bytes "no"]],
    .lines [(bytes "Peer", bytes "aa:bb@3"), (bytes "FriendlyName", bytes "tv"), (bytes "Connected", bytes "0")]] := by decide +kernel

/-- A request that fails changes nothing. -/
example : did broken [.msg hello, ws ["set-managed", "3", "no"], ws ["set-managed", "3", "no"], ws ["disconnect", "aa:bb@3"]] =
    some [.set l3 (bytes "Managed") (.b false), .set l3 (bytes "Managed") (.b false), .call pA (bytes "Disconnect") []] := by decide +kernel

/-! ### C102 -/

/-- **C102**, names: the link a name means is found, and no other; the same for peers.  A name means at most one object. -/
theorem names_exact (E : Env) (es : List Ev) (w : S) (hr : run E start es = some w) (n : List Byte) :
    (∀ l, w.searchLink n = some l ↔ meansLink w n l) ∧ (∀ p, w.searchPeer n = some p ↔ meansPeer w n p) :=
  ⟨searchLink_iff w n, searchPeer_iff (run_inv es inv_start hr).rel.good n⟩

/-- **C102**, labels: what `list` shows as the label of a link (unless it is empty) or of a peer means that object. -/
theorem labels_mean (E : Env) (es : List Ev) (w : S) (hr : run E start es = some w) (l : Link) (hl : l ∈ w.links) :
    (l.label ≠ [] → meansLink w l.label l) ∧ ∀ p ∈ l.peers, meansPeer w p.label p := by
  have hg := (run_inv es inv_start hr).rel.good
  refine ⟨fun hn => (searchLink_iff w _ l).mp (search_label hg hl hn), fun p hp => ⟨?_, Or.inl ⟨List.mem_flatMap.mpr ⟨l, hl, hp⟩, rfl⟩⟩⟩
  intro e
  obtain ⟨-, r, h1, -⟩ := own_link hg hl hp
  rw [e] at h1
  cases h1

/-- The state after `hello`. -/
def greeted : S := (run fine start [.msg hello]).getD start

theorem greeted_run : run fine start [.msg hello] = some greeted := rfl

example : ∃ l p, meansLink greeted (bytes "WLAN0") l ∧ meansLink greeted (bytes "desk") l ∧ meansPeer greeted (bytes "0@desk") p ∧ meansPeer greeted (bytes "TV") p ∧ meansPeer greeted (bytes "AA:BB@3") p ∧
    (∀ q, ¬ meansPeer greeted (bytes "1") q) ∧ l.label = bytes "3" ∧ p.label = bytes "aa:bb@3" := by
  have f : ∀ n q, greeted.searchPeer n = some q ↔ meansPeer greeted n q := fun n q => (names_exact _ _ _ greeted_run n).2 q
  have g : ∀ n q, greeted.searchLink n = some q ↔ meansLink greeted n q := fun n q => (names_exact _ _ _ greeted_run n).1 q
  refine ⟨_, _, (g _ _).mp rfl, (g _ _).mp rfl, (f _ _).mp rfl, (f _ _).mp rfl, (f _ _).mp rfl, ?_, by decide +kernel, by decide +kernel⟩
  intro q hq
  have : (greeted.searchPeer (bytes "1")).isSome = false := by decide +kernel
  rw [(f _ _).mpr hq] at this
  cases this

/-- The command did nothing: no such object, or nothing to change. -/
def nothing (E : Env) (rl : Bool) (words : List (List Byte)) (w : S) : Prop := command E rl words w = some (0, w)

/-- The command made one request about the object `label`, and succeeded if it did. -/
def asks (E : Env) (rl : Bool) (words : List (List Byte)) (w : S) (pre label : List Byte) (a : List Byte → Act) : Prop :=
  ∃ r w' path, command E rl words w = some (r, w') ∧ isPath pre path label ∧ sent E r w w' (a path)

/-- **C102**, links: `set-managed`, `set-friendly-name` and `p2p-scan` with the name of a link do exactly what they say to the link it means, unless that is
nothing new (or the link is not managed, for scanning); with a name that means no link they do nothing.  `set-managed` takes any word but `no` for
yes. -/
theorem link_commands_exact (E : Env) (es : List Ev) (w : S) (hr : run E start es = some w) (rl : Bool) (n x : List Byte) :
    ((∀ l, ¬ meansLink w n l) → nothing E rl [bytes "set-managed", n, x] w ∧ nothing E rl [bytes "set-friendly-name", n, x] w ∧
      (n ≠ bytes "stop" → nothing E true [bytes "p2p-scan", n] w ∧ nothing E true [bytes "p2p-scan", n, bytes "stop"] w)) ∧
    ∀ l, meansLink w n l →
      (if l.managed = decide (x ≠ bytes "no") then nothing E rl [bytes "set-managed", n, x] w
        else asks E rl [bytes "set-managed", n, x] w Wifid.linkPre l.label fun path => .set path (bytes "Managed") (.b (x ≠ bytes "no"))) ∧
      (∀ y, l.friendly = some y → if y = x then nothing E rl [bytes "set-friendly-name", n, x] w
        else asks E rl [bytes "set-friendly-name", n, x] w Wifid.linkPre l.label fun path => .set path (bytes "FriendlyName") (.s x)) ∧
      (n ≠ bytes "stop" → (if l.managed = true ∧ l.scanning = false then asks E true [bytes "p2p-scan", n] w Wifid.linkPre l.label fun path => .set path (bytes "P2PScanning") (.b true)
          else nothing E true [bytes "p2p-scan", n] w) ∧
        (if l.managed = true ∧ l.scanning = true then asks E true [bytes "p2p-scan", n, bytes "stop"] w Wifid.linkPre l.label fun path => .set path (bytes "P2PScanning") (.b false)
          else nothing E true [bytes "p2p-scan", n, bytes "stop"] w)) := by
  have hI := run_inv es inv_start hr
  have hg := hI.rel.good
  unfold nothing asks
  rw [command_managed E rl w (args := [n, x]) (by simp), command_name E rl w (args := [n, x]) (by simp), command_scan E w (args := [n]) (by simp), command_scan E w (args := [n, bytes "stop"]) (by simp)]
  constructor
  · intro hn
    have h0 : w.searchLink n = none := by
      cases hs : w.searchLink n with
      | none => rfl
      | some l => exact absurd ((searchLink_iff w n l).mp hs) (hn l)
    refine ⟨?_, ?_, fun hst => ⟨?_, ?_⟩⟩
    · simp only [cmdManaged, h0, Option.map_some, passed_zero]
    · simp only [cmdName, h0, Option.map_some, passed_zero]
    · simp only [cmdScan, scanArgs, if_neg hst, h0, Option.map_some, passed_zero]
    · simp only [cmdScan, scanArgs, if_neg hst, h0, Option.map_some, passed_zero]
  · intro l hm
    have h0 := (searchLink_iff w n l).mpr hm
    have hl := searchLink_mem h0
    refine ⟨?_, ?_, ?_⟩
    · simp only [cmdManaged, h0]
      rcases setManaged_exact E hI hl (decide (x ≠ bytes "no")) with ⟨e, h1⟩ | ⟨e, r, w', path, h1, h2, h3⟩
      · rw [if_pos e, h1, Option.map_some, passed_zero]
      · rw [if_neg e, h1]
        exact ⟨_, w', path, rfl, h2, h3⟩
    · intro y hy
      simp only [cmdName, h0]
      rcases setName_exact E hI hl hy x with ⟨e, h1⟩ | ⟨e, r, w', path, h1, h2, h3⟩
      · rw [if_pos e, h1, Option.map_some, passed_zero]
      · rw [if_neg e, h1]
        exact ⟨_, w', path, rfl, h2, h3⟩
    · intro hst
      simp only [cmdScan, scanArgs, if_neg hst, h0, if_true, Option.some_or, linkAt_id hg hl, Option.bind_eq_bind, Option.bind_some]
      cases hman : l.managed with
      | false => simp [passed_zero]
      | true =>
        simp only [Bool.not_true, Bool.false_eq_true, if_false, true_and, Bool.not_false]
        constructor
        · rcases setScan_exact E hI hl true with ⟨e, h1⟩ | ⟨e, r, w', path, h1, h2, h3⟩
          · rw [if_neg (by rw [e]; simp), h1, Option.map_some, passed_zero]
          · rw [if_pos (by simpa using e), h1]
            exact ⟨_, w', path, rfl, h2, h3⟩
        · rcases setScan_exact E hI hl false with ⟨e, h1⟩ | ⟨e, r, w', path, h1, h2, h3⟩
          · rw [if_neg (by rw [e]; simp), h1, Option.map_some, passed_zero]
          · rw [if_pos (by simpa using e), h1]
            exact ⟨_, w', path, rfl, h2, h3⟩

example : did fine [.msg hello, ws ["set-managed", "3", "maybe"], ws ["set-managed", "3", "no"], ws ["set-managed", "3", "maybe"], ws ["set-friendly-name", "wlan0", "desk"], ws ["set-friendly-name", "wlan0", "Desk"]] =
    some [.set l3 (bytes "Managed") (.b false), .set l3 (bytes "Managed") (.b true), .set l3 (bytes "FriendlyName") (.s (bytes "Desk"))] := by decide +kernel

/-- **C102**, peers: `connect` asks for the peer the name means to be connected as `asksFor` says, `disconnect` for it to be disconnected, provided its link is
managed; otherwise, and if the name means no peer, nothing happens. -/
theorem peer_commands_exact (E : Env) (es : List Ev) (w : S) (hr : run E start es = some w) (rl : Bool) (n : List Byte) (rest : List (List Byte)) (hrest : rest.length ≤ 2) :
    ((∀ p, ¬ meansPeer w n p) → nothing E rl (bytes "connect" :: n :: rest) w ∧ nothing E rl [bytes "disconnect", n] w) ∧
    ∀ p, meansPeer w n p → ∃ l ∈ w.links, p ∈ l.peers ∧
      (l.managed = false → nothing E rl (bytes "connect" :: n :: rest) w ∧ nothing E rl [bytes "disconnect", n] w) ∧
      (l.managed = true → (∃ prov pin, asksFor rest prov pin ∧ asks E rl (bytes "connect" :: n :: rest) w Wifid.peerPre p.label fun path => .call path (bytes "Connect") [prov, pin]) ∧
        asks E rl [bytes "disconnect", n] w Wifid.peerPre p.label fun path => .call path (bytes "Disconnect") []) := by
  have hI := run_inv es inv_start hr
  have hg := hI.rel.good
  unfold nothing asks
  rw [command_connect E rl w (args := n :: rest) (by simpa using hrest), command_disconnect E rl w (args := [n]) rfl]
  constructor
  · intro hn
    have h0 : w.searchPeer n = none := by
      cases hs : w.searchPeer n with
      | none => rfl
      | some p => exact absurd ((searchPeer_iff hg n p).mp hs) (hn p)
    simp only [cmdConnect, cmdDisconnect, h0, Option.map_some, passed_zero, and_self]
  · intro p hm
    have h0 := (searchPeer_iff hg n p).mpr hm
    obtain ⟨l, hl, hp⟩ := searchPeer_mem hg h0
    refine ⟨l, hl, hp, ?_, ?_⟩
    · intro hman
      simp only [cmdConnect, cmdDisconnect, h0, (own_link hg hl hp).1, Option.bind_eq_bind, Option.bind_some, hman, Bool.not_false, if_true, Option.map_some, passed_zero, and_self]
    · intro hman
      simp only [cmdConnect, cmdDisconnect, h0, (own_link hg hl hp).1, Option.bind_eq_bind, Option.bind_some, hman, Bool.not_true, Bool.false_eq_true, if_false, Option.map_some]
      have hpath : isPath Wifid.peerPre (pathOf Wifid.peerPre p.label) p.label := labelOf_path (hI.pnul _ (mem_plabels.mpr ⟨l, hl, p, hp, rfl⟩))
      exact ⟨⟨_, _, provPin_asks rest, _, _, _, rfl, hpath, rfl, passed_call _ _ _⟩, _, _, _, rfl, hpath, rfl, passed_call _ _ _⟩

example : did fine [.msg hello, ws ["connect", "tv"], ws ["connect", "tv", "pbc"], ws ["connect", "tv", "1234"], ws ["connect", "tv", "pin", "1234"], ws ["connect", "nobody"], ws ["disconnect", "0"]] =
    some [.call pA (bytes "Connect") [bytes "auto", []], .call pA (bytes "Connect") [bytes "pbc", []], .call pA (bytes "Connect") [bytes "auto", bytes "1234"],
      .call pA (bytes "Connect") [bytes "pin", bytes "1234"], .call pA (bytes "Disconnect") []] := by decide +kernel

/-- A name that begins with `@` means the first peer of the link (the empty text counts as the number 0). -/
example : did fine [.msg hello, ws ["connect", "@3"]] = some [.call pA (bytes "Connect") [bytes "auto", []]] ∧ isNumber [] 0 :=
  ⟨by decide +kernel, by decide +kernel, by decide +kernel, by decide⟩

/-- **C102**, `show` with a name: a link with that label; else a peer with that label; else the link the name means; else the peer; else nothing.  `list` always shows
the tables.  (What they show of it fits what is known: C101.) -/
theorem show_exact (E : Env) (es : List Ev) (w : S) (hr : run E start es = some w) (rl : Bool) (n : List Byte) :
    (∃ w' links peers, command E rl [bytes "list"] w = some (0, w') ∧ w'.app.log = w.app.log ++ [.tables links peers]) ∧
    ((∃ l ∈ w.links, n ≠ [] ∧ key l.label = key n ∧ ∃ w' ls, command E rl [bytes "show", n] w = some (0, w') ∧ w'.app.log = w.app.log ++ [.lines ((bytes "Link", l.label) :: ls)]) ∨
     ((n = [] ∨ ∀ l ∈ w.links, key l.label ≠ key n) ∧
      ((∃ p ∈ peersOf w, key p.label = key n ∧ ∃ w' ls, command E rl [bytes "show", n] w = some (0, w') ∧ w'.app.log = w.app.log ++ [.lines ((bytes "Peer", p.label) :: ls)]) ∨
       ((∀ p ∈ peersOf w, key p.label ≠ key n) ∧
        ((∃ l, meansLink w n l ∧ ∃ w' ls, command E rl [bytes "show", n] w = some (0, w') ∧ w'.app.log = w.app.log ++ [.lines ((bytes "Link", l.label) :: ls)]) ∨
         ((∀ l, ¬ meansLink w n l) ∧
          ((∃ p, meansPeer w n p ∧ ∃ w' ls, command E rl [bytes "show", n] w = some (0, w') ∧ w'.app.log = w.app.log ++ [.lines ((bytes "Peer", p.label) :: ls)]) ∨
           ((∀ p, ¬ meansPeer w n p) ∧ nothing E rl [bytes "show", n] w)))))))) := by
  have hI := run_inv es inv_start hr
  have hg := hI.rel.good
  unfold nothing
  rw [command_list, command_show E rl w (args := [n]) (by simp)]
  constructor
  · obtain ⟨rows, h1, -⟩ := peerRows_eq hg (w.links.flatMap (·.peers)) fun p hp => List.mem_flatMap.mp hp
    simp only [cmdList, h1, Option.bind_eq_bind, Option.bind_some, Option.map_some]
    exact ⟨_, _, _, rfl, rfl⟩
  · simp only [cmdShow, showWhat]
    cases hf : w.findLink n with
    | some l =>
      obtain ⟨h1, h2, h3⟩ := (findLink_iff hg n l).mp hf
      obtain ⟨ls, h4, -⟩ := linkLines_says l
      exact Or.inl ⟨l, h2, h1, h3, _, ls, rfl, by rw [← h4]; rfl⟩
    | none =>
      refine Or.inr ⟨?_, ?_⟩
      · by_cases hn : n = []
        · exact Or.inl hn
        · refine Or.inr fun l hl e => ?_
          have := (findLink_iff hg n l).mpr ⟨hn, hl, e⟩
          rw [hf] at this; cases this
      · cases hp : w.findPeer n with
        | some p =>
          obtain ⟨l, h1, h2, h3⟩ := (findPeer_iff hg n p).mp hp
          obtain ⟨ls, h4, -⟩ := peerLines_says p
          exact Or.inl ⟨p, List.mem_flatMap.mpr ⟨l, h1, h2⟩, h3, _, ls, rfl, by rw [← h4]; rfl⟩
        | none =>
          refine Or.inr ⟨?_, ?_⟩
          · intro p hq e
            obtain ⟨l, h1, h2⟩ := List.mem_flatMap.mp hq
            have := (findPeer_iff hg n p).mpr ⟨l, h1, h2, e⟩
            rw [hp] at this; cases this
          · cases hsl : w.searchLink n with
            | some l =>
              obtain ⟨ls, h4, -⟩ := linkLines_says l
              exact Or.inl ⟨l, (searchLink_iff w n l).mp hsl, _, ls, rfl, by rw [← h4]; rfl⟩
            | none =>
              refine Or.inr ⟨fun l hm => (by have := (searchLink_iff w n l).mpr hm; rw [hsl] at this; cases this), ?_⟩
              cases hsp : w.searchPeer n with
              | some p =>
                obtain ⟨ls, h4, -⟩ := peerLines_says p
                exact Or.inl ⟨p, (searchPeer_iff hg n p).mp hsp, _, ls, rfl, by rw [← h4]; rfl⟩
              | none =>
                exact Or.inr ⟨fun p hm => (by have := (searchPeer_iff hg n p).mpr hm; rw [hsp] at this; cases this), rfl⟩

/-- A link can hide a peer from `show` by its name. -/
example : did fine [.msg hello, .msg (.changed l3 linkIf [(bytes "FriendlyName", .s (bytes "tv"))]), ws ["show", "tv"]] =
    some [.lines [(bytes "Link", bytes "3"), (bytes "InterfaceName", bytes "wlan0"), (bytes "FriendlyName", bytes "tv"), (bytes "P2PScanning", bytes "0"), (bytes "Managed", bytes "1")]] := by decide +kernel

/-! ### C103 -/

/-- **C103.** After any events: the selected link exists.  A line whose first word is not `select` keeps the selection, as does any message but the removal of that
link, which ends it.  `select` alone ends it; with a name that means a link it selects that link; with any other name it changes nothing. -/
theorem selection (E : Env) (es : List Ev) (w : S) (hr : run E start es = some w) (e : Ev) (w' : S) (hs : step E w e = some w') :
    (∀ i, w.app.selected = some i → ∃ l ∈ w.links, l.id = i) ∧
    (∀ words, e = .line words → words.head? ≠ some (bytes "select") → selectedLink w' = selectedLink w) ∧
    (∀ path, e = .msg (.removed path) → removes (selectedLink w) path → selectedLink w' = none) ∧
    ((∀ words, e ≠ .line words) → (∀ path, e = .msg (.removed path) → ¬ removes (selectedLink w) path) → selectedLink w' = selectedLink w) ∧
    (e = .line [bytes "select"] → selectedLink w' = none) ∧
    (∀ n, e = .line [bytes "select", n] → (∀ l, meansLink w n l → selectedLink w' = some l.label) ∧ ((∀ l, ¬ meansLink w n l) → selectedLink w' = selectedLink w)) := by
  have hI := run_inv es inv_start hr
  have hg := hI.rel.good
  refine ⟨hI.sel, ?_, ?_, ?_, ?_, ?_⟩
  · rintro words rfl hw
    obtain ⟨⟨r, w2⟩, h1, rfl⟩ := Option.map_eq_some_iff.mp hs
    exact (command_kept hg hw h1).selected
  · rintro path rfl hx
    obtain ⟨⟨r, w2⟩, h1, rfl⟩ := Option.map_eq_some_iff.mp hs
    exact (msg_selected hI h1).1 path rfl hx
  · intro hl hx
    cases e with
    | line words => exact absurd rfl (hl words)
    | msg m =>
      obtain ⟨⟨r, w2⟩, h1, rfl⟩ := Option.map_eq_some_iff.mp hs
      exact (msg_selected hI h1).2 fun path em => hx path (by rw [em])
  · rintro rfl
    rw [step, command_select E w (args := []) (by simp)] at hs
    unfold cmdSelect at hs
    simp only at hs
    split at hs
    · rename_i h0
      simp only [Option.map_some, Option.some.injEq] at hs
      rw [← hs, selected_eq, h0]
      rfl
    · rename_i i h0
      obtain ⟨l, hl, rfl⟩ := hI.sel i h0
      rw [linkAt_id hg hl] at hs
      simp only [Option.map_some, Option.some.injEq] at hs
      rw [← hs]
      rfl
  · rintro n rfl
    rw [step, command_select E w (args := [n]) (by simp)] at hs
    simp only [cmdSelect] at hs
    constructor
    · intro l hm
      have h0 := (searchLink_iff w n l).mpr hm
      have hl := searchLink_mem h0
      rw [h0] at hs
      simp only [Option.map_map, Option.map_eq_some_iff, Prod.exists, Function.comp] at hs
      obtain ⟨r, w2, h1, rfl⟩ := hs
      rw [(setWfd_kept h1).selected, selected_eq]
      change lab _ l.id = some l.label
      have : lab { w with app := { w.app with selected := some l.id } } l.id = lab w l.id := lab_same rfl _
      rw [this, lab, linkAt_id hg hl]
      rfl
    · intro hn
      have h0 : w.searchLink n = none := by
        cases hs : w.searchLink n with
        | none => rfl
        | some l => exact absurd ((searchLink_iff w n l).mp hs) (hn l)
      rw [h0] at hs
      simp only [Option.map_some, Option.some.injEq] at hs
      rw [← hs]

/-- The selected link after some events. -/
def picked (E : Env) (es : List Ev) : Option (Option (List Byte)) := (run E start es).map selectedLink

example : picked fine [.msg hello, ws ["select", "wlan0"], ws ["list"], .msg (.removed pA)] = some (some (bytes "3")) ∧
    picked fine [.msg hello, ws ["select", "wlan0"], ws ["select", "wlan1"]] = some (some (bytes "3")) ∧
    picked fine [.msg hello, ws ["select", "wlan0"], ws ["select"]] = some none ∧
    picked fine [.msg hello, ws ["select", "wlan0"], .msg (.removed l3)] = some none ∧
    picked fine [.msg hello, ws ["select", "wlan0"], .msg (.removed l3), .msg hello] = some none := by decide +kernel

/-- **C103**, `select` with a name: it asks for the link to announce the sink's subelements unless it does already, and for nothing else; it succeeds even if that fails. -/
theorem select_exact (E : Env) (es : List Ev) (w : S) (hr : run E start es = some w) (n : List Byte) :
    ((∀ l, ¬ meansLink w n l) → nothing E true [bytes "select", n] w) ∧
    ∀ l y, meansLink w n l → l.wfd = some y →
      ∃ w', command E true [bytes "select", n] w = some (0, w') ∧ selectedLink w' = some l.label ∧
        if y = bytes "000600111c4400c8" then w'.app.log = w.app.log
        else ∃ path, isPath Wifid.linkPre path l.label ∧ w'.app.log = w.app.log ++ [.set path (bytes "WfdSubelements") (.s (bytes "000600111c4400c8"))] := by
  have hI := run_inv es inv_start hr
  have hg := hI.rel.good
  unfold nothing
  rw [command_select E w (args := [n]) (by simp)]
  constructor
  · intro hn
    have h0 : w.searchLink n = none := by
      cases hs : w.searchLink n with
      | none => rfl
      | some l => exact absurd ((searchLink_iff w n l).mp hs) (hn l)
    simp only [cmdSelect, h0, Option.map_some, passed_zero]
  · intro l y hm hy
    have h0 := (searchLink_iff w n l).mpr hm
    have hl := searchLink_mem h0
    have h1 : linkAt { w with app := { w.app with selected := some l.id } } l.id = some l := linkAt_id hg hl
    simp only [cmdSelect, h0, setWfd, h1, Option.bind_eq_bind, Option.bind_some, hy]
    have hsel : ∀ log, selectedLink { w with app := { w.app with selected := some l.id, log := log } } = some l.label := by
      intro log
      rw [selected_eq]
      change lab _ l.id = some l.label
      rw [lab, (linkAt_id (w := { w with app := { w.app with selected := some l.id, log := log } }) hg hl)]
      rfl
    by_cases hv : y = bytes "000600111c4400c8"
    · rw [if_pos hv]
      refine ⟨_, rfl, hsel _, ?_⟩
      rw [if_pos hv]
    · rw [if_neg hv]
      refine ⟨_, rfl, hsel _, ?_⟩
      rw [if_neg hv]
      exact ⟨_, labelOf_path (hI.nul l hl), rfl⟩

/-- **C103**, its use: `set-managed`, `set-friendly-name`, `p2p-scan` and `show` without the name of a link do what they do with the label of the selected link; without
a selected link they do nothing.  (`show` differs for no link; the label must not be empty, nor `stop` for `p2p-scan`.) -/
theorem selection_used (E : Env) (es : List Ev) (w : S) (hr : run E start es = some w) (rl : Bool) (x : List Byte) :
    (∀ label, selectedLink w = some label → label ≠ [] →
      command E rl [bytes "set-managed", x] w = command E rl [bytes "set-managed", label, x] w ∧
      command E rl [bytes "set-friendly-name", x] w = command E rl [bytes "set-friendly-name", label, x] w ∧
      command E rl [bytes "show"] w = command E rl [bytes "show", label] w ∧
      (label ≠ bytes "stop" → command E true [bytes "p2p-scan"] w = command E true [bytes "p2p-scan", label] w ∧
        command E true [bytes "p2p-scan", bytes "stop"] w = command E true [bytes "p2p-scan", label, bytes "stop"] w)) ∧
    (selectedLink w = none → nothing E rl [bytes "set-managed", x] w ∧ nothing E rl [bytes "set-friendly-name", x] w ∧ nothing E rl [bytes "show"] w ∧
      nothing E true [bytes "p2p-scan"] w ∧ nothing E true [bytes "p2p-scan", bytes "stop"] w) := by
  have hI := run_inv es inv_start hr
  have hg := hI.rel.good
  unfold nothing
  rw [command_managed E rl w (args := [x]) (by simp), command_name E rl w (args := [x]) (by simp), command_show E rl w (args := []) (by simp),
    command_scan E w (args := []) (by simp), command_scan E w (args := [bytes "stop"]) (by simp)]
  constructor
  · intro label hs hn
    rw [command_managed E rl w (args := [label, x]) (by simp), command_name E rl w (args := [label, x]) (by simp), command_show E rl w (args := [label]) (by simp),
      command_scan E w (args := [label]) (by simp), command_scan E w (args := [label, bytes "stop"]) (by simp)]
    rw [selected_eq] at hs
    obtain ⟨i, hi, hla⟩ := Option.bind_eq_some_iff.mp hs
    obtain ⟨l, hl, rfl⟩ := Option.map_eq_some_iff.mp hla
    obtain ⟨hm, rfl⟩ := linkAt_mem hl
    have h0 := search_label hg hm hn
    have h1 : w.findLink l.label = some l := (findLink_iff hg _ _).mpr ⟨hn, hm, rfl⟩
    refine ⟨?_, ?_, ?_, fun hst => ⟨?_, ?_⟩⟩
    · simp only [cmdManaged, hi, h0]
    · simp only [cmdName, hi, h0]
    · simp only [cmdShow, showWhat, hi, h1, hl, Option.map_some]
    · simp only [cmdScan, scanArgs, if_neg hst, h0, hi, Option.some_or, Option.none_or]
    · simp only [cmdScan, scanArgs, if_neg hst, if_true, h0, hi, Option.some_or, Option.none_or]
  · intro hs
    have h0 : w.app.selected = none := by
      cases hi : w.app.selected with
      | none => rfl
      | some i =>
        obtain ⟨l, hl, rfl⟩ := hI.sel i hi
        rw [selected_eq, hi] at hs
        simp only [Option.bind_some, lab, linkAt_id hg hl, Option.map_some] at hs
        cases hs
    simp only [cmdManaged, cmdName, cmdShow, cmdScan, scanArgs, h0, if_true, Option.none_or, Option.map_some, passed_zero, and_self]

example : did fine [.msg hello, ws ["select", "wlan0"], ws ["p2p-scan"], ws ["set-managed", "no"]] =
    some [.set l3 (bytes "WfdSubelements") (.s (bytes "000600111c4400c8")), .set l3 (bytes "P2PScanning") (.b true), .set l3 (bytes "Managed") (.b false)] := by decide +kernel

/-! ### C104 -/

/-- **C104**, partial: if every announcement of a link says its `FriendlyName` and `WfdSubelements`, no sequence of messages and lines, and neither way to run the
program, leads to undefined behaviour.  (In full this would hold for all messages: see `select_crashes`.) -/
theorem no_crash_partial (E : Env) (objects : List (List Byte × Ifaces)) (ho : fullMsg (.objects objects)) :
    (∀ es, (∀ e ∈ es, fullEv e) → (run E start es).isSome = true ∧ (interactive E objects es).isSome = true) ∧ ∀ words, (single E objects words).isSome = true := by
  have h0 : Full start := fun l hl => nomatch hl
  obtain ⟨r, w, h1, h2⟩ := fetch_total objects start
  have hI : Inv w (Obs.nothing.hear (.objects objects)) := inv_start.msg (.objects objects) h1
  have fin : ∀ w : S, ∃ w', finish w = some w' := fun w => freeLinks_total _ w
  constructor
  · intro es hc
    refine ⟨?_, ?_⟩
    · obtain ⟨w', h, -⟩ := run_total (E := E) es inv_start h0 hc
      rw [h]; rfl
    · unfold interactive
      have e : fetch hooks objects { app := {} } = some (r, w) := h1
      rw [e]
      simp only [Option.bind_eq_bind, Option.bind_some]
      split
      · obtain ⟨w', h⟩ := fin w
        rw [h]; rfl
      · obtain ⟨w1, h3, -⟩ := run_total (E := E) es hI (h2 ho h0) hc
        rw [h3]
        have hI1 := run_inv es hI h3
        obtain ⟨w2, h4, -⟩ := stopScans_total E w1.links hI1.rel.good fun l hl => ⟨l, hl, rfl⟩
        simp only [Option.bind_some, h4]
        obtain ⟨w', h⟩ := fin w2
        rw [h]; rfl
  · intro words
    unfold single
    have e : fetch hooks objects { app := {} } = some (r, w) := h1
    rw [e]
    simp only [Option.bind_eq_bind, Option.bind_some]
    split
    · obtain ⟨w', h⟩ := fin w
      rw [h]; rfl
    · obtain ⟨r1, w1, h3, -⟩ := command_total (E := E) hI (h2 ho h0) false words
      rw [h3]
      obtain ⟨w', h⟩ := fin w1
      simp only [Option.bind_some, h]
      rfl

example : fullMsg hello := by
  intro q hq
  simp only [List.mem_cons, List.not_mem_nil, or_false] at hq
  rcases hq with rfl | rfl
  · exact fun _ => ⟨⟨props3, by decide +kernel, [], by decide +kernel⟩, props3, by decide +kernel, bytes "desk", by decide +kernel⟩
  · exact fun h => absurd (by decide +kernel) h

/-- **C104** fails in full: selecting a link that was announced without `WfdSubelements` is undefined behaviour (`strcmp` of a null pointer), as is setting the
friendly name of one announced without `FriendlyName`. -/
theorem select_crashes : run fine start [.msg (.added l3 []), ws ["select", "3"]] = none ∧ run fine start [.msg (.added l3 []), ws ["set-friendly-name", "3", "x"]] = none ∧
    (run fine start [.msg (.added l3 [])]).isSome = true := by decide +kernel

/-! ### C105 -/

/-- **C105**, partial: at the end of an interactive session (after any events), the requests made are exactly to stop scanning on the links on which the controller had it
turned on since they appeared and which have since been reported as scanning; each once.  (Nothing is said about links whose label is empty.) -/
theorem stop_at_exit_partial (E : Env) (es : List Ev) (w : S) (hr : run E start es = some w) (w1 w' : S) (h1 : stopScans E w.links w = some w1) (h2 : finish w1 = some w') :
    ∃ acts, w'.app.log = w.app.log ++ acts ∧
      (∀ a ∈ acts, ∃ path, a = .set path (bytes "P2PScanning") (.b false)) ∧
      (∀ label, label ≠ [] → ((∃ path x, Act.set path (bytes "P2PScanning") (.b false) ∈ acts ∧ isPath Wifid.linkPre path x ∧ key x = key label) ↔
        (after E es).mine (key label) = true ∧ ∃ v, (after E es).known.link (key label) = some v ∧ v.scanning = true)) ∧
      acts.Pairwise (fun a b => ∀ path prop v path' prop' v' x y, a = .set path prop v → b = .set path' prop' v' → isPath Wifid.linkPre path x → isPath Wifid.linkPre path' y → x ≠ [] → key x ≠ key y) := by
  have hI := run_inv es inv_start hr
  have hg := hI.rel.good
  obtain ⟨w2, e1, -, -, e4⟩ := stopScans_eq E w.links hg fun l hl => hl
  rw [h1] at e1; cases e1
  refine ⟨_, by rw [finish_log h2, e4], ?_, ?_, ?_⟩
  · intro a ha
    obtain ⟨l, -, rfl⟩ := List.mem_map.mp ha
    exact ⟨_, rfl⟩
  · intro label hn
    constructor
    · rintro ⟨path, x, hm, hp, hk⟩
      obtain ⟨l, hl, e⟩ := List.mem_map.mp hm
      simp only [setReq, Act.set.injEq, and_true] at e
      obtain ⟨hl, hc⟩ := List.mem_filter.mp hl
      simp only [Bool.and_eq_true] at hc
      have hx : x = l.label := by
        have := labelOf_path (pre := Wifid.linkPre) (hI.nul l hl)
        rw [e] at this
        unfold isPath at hp
        rw [hp] at this
        injection this
      subst hx
      have hln : l.label ≠ [] := fun e => hn (key_nil.mp (by rw [← hk, e]; rfl))
      rw [← hk]
      refine ⟨?_, l.view, known_view hI hl hln, hc.2⟩
      have := hI.mine l hl hln
      rw [hc.1] at this
      exact this.symm
    · rintro ⟨hm, v, hv, hs⟩
      obtain ⟨l, hl, hk, rfl⟩ := (hI.rel.link label hn v).mp hv
      have hln : l.label ≠ [] := fun e => hn (key_nil.mp (by rw [← hk, e]; rfl))
      refine ⟨pathOf Wifid.linkPre l.label, l.label, List.mem_map.mpr ⟨l, List.mem_filter.mpr ⟨hl, ?_⟩, rfl⟩, labelOf_path (hI.nul l hl), hk⟩
      have := hI.mine l hl hln
      rw [hk] at this
      simp only [Bool.and_eq_true]
      exact ⟨this.trans hm, hs⟩
  · rw [List.pairwise_map]
    apply List.Pairwise.filter
    have hp : w.links.Pairwise fun a b => a.label ≠ [] → key a.label ≠ key b.label := List.pairwise_map.mp hg.labels
    refine List.Pairwise.imp_of_mem ?_ hp
    intro a b ha hb hab path prop v path' prop' v' x y ea eb hx hy hne
    simp only [setReq, Act.set.injEq] at ea eb
    unfold isPath at hx hy
    rw [← ea.1, labelOf_path (hI.nul a ha)] at hx
    rw [← eb.1, labelOf_path (hI.nul b hb)] at hy
    injection hx with hx
    injection hy with hy
    subst hx hy
    exact hab hne

/-- What was done in an interactive session, to its end. -/
def session (E : Env) (objects : List (List Byte × Ifaces)) (es : List Ev) : Option (List Act) := (interactive E objects es).map (·.2.app.log)

/-- Scanning is reported on a link. -/
def scanning : Ev := .msg (.changed l3 linkIf [(bytes "P2PScanning", .b true)])

example : session fine [(l3, [(linkIf, [(bytes "Managed", .b true)])])] [ws ["p2p-scan", "3"], scanning] =
    some [.set l3 (bytes "P2PScanning") (.b true), .set l3 (bytes "P2PScanning") (.b false)] ∧
  session fine [(l3, [(linkIf, [(bytes "Managed", .b true)])])] [scanning] = some [] ∧
  session broken [(l3, [(linkIf, [(bytes "Managed", .b true)])])] [ws ["p2p-scan", "3"], scanning] = some [.set l3 (bytes "P2PScanning") (.b true)] := by decide +kernel

/-- **C105** fails in full: a scan that was asked for and granted is not stopped if the session ends before the daemon has said that it scans; and one that the user stopped, and
somebody else then started, is stopped. -/
theorem scan_left_running :
    session fine [(l3, [(linkIf, [(bytes "Managed", .b true)])])] [ws ["p2p-scan", "3"]] = some [.set l3 (bytes "P2PScanning") (.b true)] ∧
    session fine [(l3, [(linkIf, [(bytes "Managed", .b true)])])]
        [ws ["p2p-scan", "3"], scanning, ws ["p2p-scan", "3", "stop"], .msg (.changed l3 linkIf [(bytes "P2PScanning", .b false)]), scanning] =
      some [.set l3 (bytes "P2PScanning") (.b true), .set l3 (bytes "P2PScanning") (.b false), .set l3 (bytes "P2PScanning") (.b false)] := by decide +kernel

/-! ### C106 -/

/-- **C106**, partial: the result of a command given as arguments of the program is never positive, and it is negative (so that the program exits with a failure) exactly if the
command is not one of those understood there with that number of arguments, or a request was made and failed.  (In full, it would also fail if it did not do what was asked:
see `exit_status_misleads`.) -/
theorem exit_status_partial (E : Env) (es : List Ev) (w : S) (_hr : run E start es = some w) (cmd : List Byte) (args : List (List Byte)) (hn : args.length < W32) (r : Int) (w' : S)
    (h : command E false (cmd :: args) w = some (r, w')) :
    r ≤ 0 ∧ (r < 0 ↔ ¬ accepts cmd args.length ∨ ∃ a, w'.app.log = w.app.log ++ [a] ∧ isRequest a ∧ E.bus w.app.log.length < 0) := by
  have ok : accepts cmd args.length → Failed E w r w' →
      r ≤ 0 ∧ (r < 0 ↔ ¬ accepts cmd args.length ∨ ∃ a, w'.app.log = w.app.log ++ [a] ∧ isRequest a ∧ E.bus w.app.log.length < 0) := by
    rintro ha ⟨h1, h2⟩
    refine ⟨h1, ?_⟩
    rw [h2]
    constructor
    · exact Or.inr
    · rintro (hx | hx)
      · exact absurd ha hx
      · exact hx
  have bad : ¬ accepts cmd args.length → r < 0 →
      r ≤ 0 ∧ (r < 0 ↔ ¬ accepts cmd args.length ∨ ∃ a, w'.app.log = w.app.log ++ [a] ∧ isRequest a ∧ E.bus w.app.log.length < 0) :=
    fun ha hr => ⟨by omega, fun _ => Or.inl ha, fun _ => hr⟩
  have e1 : EINVAL = 22 := rfl
  have e2 : Cli.EAGAIN = 11 := rfl
  have wrong : ∀ c, Cli.chosen false (table E) cmd = some c → ¬ Cli.legal c args.length → r < 0 := by
    intro c hc hl
    rw [wrong_number E w hn hc hl] at h
    simp only [Option.some.injEq, Prod.mk.injEq] at h
    omega
  by_cases c1 : cmd = bytes "list"
  · subst c1
    by_cases ha : args.length = 0
    · have : args = [] := List.length_eq_zero_iff.mp ha
      subst this
      rw [command_list] at h
      exact ok (Or.inl ⟨rfl, rfl⟩) (passed_failed (fun _ _ e => list_failed e) h)
    · refine bad ?_ (wrong _ (show _ = some (row E 0 (by decide)) from rfl) (by change ¬ (args.length : Int) ≤ 0; omega))
      rintro (⟨e, h⟩ | ⟨e, h⟩ | ⟨e, h⟩ | ⟨e, h⟩ | ⟨e, h⟩ | ⟨e, h⟩ | e) <;> first | exact absurd e (by decide +kernel) | omega
  by_cases c2 : cmd = bytes "show"
  · subst c2
    by_cases ha : args.length ≤ 1
    · rw [command_show E false w ha] at h
      exact ok (Or.inr (Or.inl ⟨rfl, ha⟩)) (passed_failed (fun _ _ e => show_failed e) h)
    · refine bad ?_ (wrong _ (show _ = some (row E 2 (by decide)) from rfl) (by change ¬ (args.length : Int) ≤ 1; omega))
      rintro (⟨e, h⟩ | ⟨e, h⟩ | ⟨e, h⟩ | ⟨e, h⟩ | ⟨e, h⟩ | ⟨e, h⟩ | e) <;> first | exact absurd e (by decide +kernel) | omega
  by_cases c3 : cmd = bytes "set-friendly-name"
  · subst c3
    by_cases ha : args.length ≤ 2
    · rw [command_name E false w ha] at h
      exact ok (Or.inr (Or.inr (Or.inl ⟨rfl, ha⟩))) (passed_failed (fun _ _ e => name_failed e) h)
    · refine bad ?_ (wrong _ (show _ = some (row E 3 (by decide)) from rfl) (by change ¬ (args.length : Int) ≤ 2; omega))
      rintro (⟨e, h⟩ | ⟨e, h⟩ | ⟨e, h⟩ | ⟨e, h⟩ | ⟨e, h⟩ | ⟨e, h⟩ | e) <;> first | exact absurd e (by decide +kernel) | omega
  by_cases c4 : cmd = bytes "set-managed"
  · subst c4
    by_cases ha : args.length ≤ 2
    · rw [command_managed E false w ha] at h
      exact ok (Or.inr (Or.inr (Or.inr (Or.inl ⟨rfl, ha⟩)))) (passed_failed (fun _ _ e => managed_failed e) h)
    · refine bad ?_ (wrong _ (show _ = some (row E 4 (by decide)) from rfl) (by change ¬ (args.length : Int) ≤ 2; omega))
      rintro (⟨e, h⟩ | ⟨e, h⟩ | ⟨e, h⟩ | ⟨e, h⟩ | ⟨e, h⟩ | ⟨e, h⟩ | e) <;> first | exact absurd e (by decide +kernel) | omega
  by_cases c5 : cmd = bytes "connect"
  · subst c5
    by_cases ha : args.length ≤ 3
    · rw [command_connect E false w ha] at h
      exact ok (Or.inr (Or.inr (Or.inr (Or.inr (Or.inl ⟨rfl, ha⟩))))) (passed_failed (fun _ _ e => connect_failed e) h)
    · refine bad ?_ (wrong _ (show _ = some (row E 6 (by decide)) from rfl) (by change ¬ (args.length : Int) ≤ 3; omega))
      rintro (⟨e, h⟩ | ⟨e, h⟩ | ⟨e, h⟩ | ⟨e, h⟩ | ⟨e, h⟩ | ⟨e, h⟩ | e) <;> first | exact absurd e (by decide +kernel) | omega
  by_cases c6 : cmd = bytes "disconnect"
  · subst c6
    by_cases ha : args.length = 1
    · rw [command_disconnect E false w ha] at h
      exact ok (Or.inr (Or.inr (Or.inr (Or.inr (Or.inr (Or.inl ⟨rfl, ha⟩)))))) (passed_failed (fun _ _ e => disconnect_failed e) h)
    · refine bad ?_ (wrong _ (show _ = some (row E 7 (by decide)) from rfl) (by change ¬ (args.length : Int) = 1; omega))
      rintro (⟨e, h⟩ | ⟨e, h⟩ | ⟨e, h⟩ | ⟨e, h⟩ | ⟨e, h⟩ | ⟨e, h⟩ | e) <;> first | exact absurd e (by decide +kernel) | omega
  by_cases c7 : cmd = bytes "help"
  · subst c7
    rw [help_command E w hn] at h
    cases h
    exact ok (Or.inr (Or.inr (Or.inr (Or.inr (Or.inr (Or.inr rfl)))))) (.same E _)
  · rw [unknown_command E w hn (chosen_none E ⟨c1, c2, c3, c4, c5, c6, c7⟩) c7] at h
    simp only [Option.some.injEq, Prod.mk.injEq] at h
    refine bad ?_ (by omega)
    unfold accepts
    simp only [c1, c2, c3, c4, c5, c6, c7, false_and, or_self, not_false_eq_true]

/-- The result of the program for one command. -/
def result (E : Env) (objects : List (List Byte × Ifaces)) (words : List String) : Option Int := (single E objects (words.map bytes)).map (·.1)

/-- The objects of `hello`. -/
def objs (managed : Bool) : List (List Byte × Ifaces) := [(l3, [(linkIf, [(bytes "Managed", .b managed)])]), (pA, [(peerIf, [])])]

example : result fine (objs true) ["connect", "aa:bb@3"] = some 0 ∧ result broken (objs true) ["connect", "aa:bb@3"] = some (-5) ∧ result fine (objs true) ["conect", "aa:bb@3"] = some (-11) ∧
    result fine (objs true) ["disconnect"] = some (-22) ∧ result fine (objs true) ["p2p-scan", "3"] = some (-11) := by decide +kernel

/-- **C106** fails in full: asking for an unknown peer or link to be changed, or for a peer of a link that is not managed to be connected, is reported as a success though
nothing was done. -/
theorem exit_status_misleads : result fine (objs true) ["connect", "nobody"] = some 0 ∧ result fine (objs true) ["set-managed", "wlan7", "yes"] = some 0 ∧
    result fine (objs false) ["connect", "aa:bb@3"] = some 0 ∧ result fine (objs true) ["connect"] = some 0 := by decide +kernel

end Verif.Wifictl
