import Verif.Proof.Ask
/-!
# C136: requests reach wpa_supplicant as asked

The statements are about what wpa_supplicant hears (`Spec.hear`), for every text that fits into a message.
Texts are quoted by the message code as they would be for a shell, but wpa_supplicant takes them as they are.
So a text is heard as it was given exactly if it has no white space, quotation mark or backslash.
-/
namespace Verif.Ask.Props
open Verif.C Verif.Ask Verif.Ask.Spec

/-- sizes of the texts of a request -/
local macro "sizes" : tactic =>
  `(tactic| (simp only [List.flatten_cons, List.flatten_nil, List.append_nil, List.cons_append, List.nil_append,
      List.append_assoc, room_cons, room_nil, List.length_append] ; simp [bytes] ; try omega))

theorem told_iff {r : Option (Int × Option (List Byte))} {d : List Byte} {h : Heard} (e : r = some (0, some d)) :
    Told r h ↔ hear d = h := by
  constructor
  · rintro ⟨d', e', h'⟩
    rw [e] at e'
    simp only [Option.some.injEq, Prod.mk.injEq, true_and] at e'
    exact e' ▸ h'
  · exact fun h => ⟨d, e, h⟩

theorem hear_app (c r : List Byte) (h : ch ' ' ∉ c) : hear (c ++ ch ' ' :: r) = hearWith c r := by
  unfold hear
  rw [divide_app c r h]

/-- The line of a command with one text. -/
theorem line1 (jk : Nat → Byte) (c a : List Byte) (hc : Unquoted c) (hn : c ≠ [])
    (hl : Qstr.room [c, a] < 2147483648) :
    call jk c [[.str (some a)]] = some (0, some (c ++ ch ' ' :: Qstr.enc a)) := by
  have := call_line jk c [[a]] hn hl
  rw [show ([[a]] : List (List (List Byte))).flatten = [a] from rfl, line_eq c ((enc_id c).mpr hc) hn] at this
  simpa [texts] using this

/-- The line of a command with two texts. -/
theorem line2 (jk : Nat → Byte) (c a b : List Byte) (hc : Unquoted c) (hn : c ≠ [])
    (hl : Qstr.room [c, a, b] < 2147483648) :
    call jk c [[.str (some a), .str (some b)]] = some (0, some (c ++ ch ' ' :: (Qstr.enc a ++ ch ' ' :: Qstr.enc b))) := by
  have := call_line jk c [[a, b]] hn hl
  rw [show ([[a, b]] : List (List (List Byte))).flatten = [a, b] from rfl, line_eq c ((enc_id c).mpr hc) hn] at this
  simpa [texts] using this

theorem line11 (jk : Nat → Byte) (c a b : List Byte) (hc : Unquoted c) (hn : c ≠ [])
    (hl : Qstr.room [c, a, b] < 2147483648) :
    call jk c [[.str (some a)], [.str (some b)]] = some (0, some (c ++ ch ' ' :: (Qstr.enc a ++ ch ' ' :: Qstr.enc b))) := by
  have := call_line jk c [[a], [b]] hn hl
  rw [show ([[a], [b]] : List (List (List Byte))).flatten = [a, b] from rfl, line_eq c ((enc_id c).mpr hc) hn] at this
  simpa [texts] using this

theorem line12 (jk : Nat → Byte) (c a b d : List Byte) (hc : Unquoted c) (hn : c ≠ [])
    (hl : Qstr.room [c, a, b, d] < 2147483648) :
    call jk c [[.str (some a)], [.str (some b), .str (some d)]] =
      some (0, some (c ++ ch ' ' :: (Qstr.enc a ++ ch ' ' :: (Qstr.enc b ++ ch ' ' :: Qstr.enc d)))) := by
  have := call_line jk c [[a], [b, d]] hn hl
  rw [show ([[a], [b, d]] : List (List (List Byte))).flatten = [a, b, d] from rfl, line_eq c ((enc_id c).mpr hc) hn] at this
  simpa [texts] using this

theorem hear_setting (c n v : List Byte) (hc : c = bytes "SET" ∨ c = bytes "P2P_SET") (hb : ch ' ' ∉ c) (hn : ch ' ' ∉ n) :
    hear (c ++ ch ' ' :: (n ++ ch ' ' :: v)) = .setting c n v := by
  rw [hear_app c _ hb, hearWith, if_pos hc, hearSetting, divide_app n v hn]

theorem encU {s : List Byte} (h : Unquoted s) : Qstr.enc s = s := (enc_id s).mpr h

/-- A name set while wpa_supplicant runs is heard as the device name, and only as that, whatever it contains:
no name changes another setting or adds a command.  It is heard as it was given exactly if it has no white
space, quotation mark or backslash. -/
theorem name_heard_partial (jk : Nat → Byte) (name : List Byte) (hn : name ≠ []) (hl : name.length ≤ 1000000000) :
    (∃ v, Told (setName jk true (some name)) (.setting (bytes "SET") (bytes "device_name") v)) ∧
    (Told (setName jk true (some name)) (.setting (bytes "SET") (bytes "device_name") name) ↔ Unquoted name) := by
  have e : setName jk true (some name) =
      some (0, some (bytes "SET" ++ ch ' ' :: (bytes "device_name" ++ ch ' ' :: Qstr.enc name))) := by
    unfold setName
    rw [if_neg (by simp [hn])]
    have := line2 jk (bytes "SET") (bytes "device_name") name (by decide) (by decide) (by sizes)
    rwa [encU (s := bytes "device_name") (by decide)] at this
  have h := fun v => hear_setting (bytes "SET") (bytes "device_name") v (Or.inl rfl) (by decide) (by decide)
  refine ⟨⟨Qstr.enc name, (told_iff e).mpr (h _)⟩, ?_⟩
  rw [told_iff e, h, ← enc_id]
  simp

/-- Without a running wpa_supplicant or without a name nothing is sent. -/
theorem name_refused (jk : Nat → Byte) (running : Bool) (name : Option (List Byte)) :
    (running = false ∨ name = none ∨ name = some []) → Refused (setName jk running name) := by
  intro h
  unfold setName
  rw [if_pos h]
  rfl

example : Told (setName (fun _ => 7) true (some (bytes "tv"))) (.setting (bytes "SET") (bytes "device_name") (bytes "tv")) :=
  (name_heard_partial _ _ (by decide) (by decide +kernel)).2.mpr (by decide)

/-- Violation: the name "my tv" is heard with quotation marks around it. -/
theorem name_quoted : ∃ jk name, Told (setName jk true (some name)) (.setting (bytes "SET") (bytes "device_name") (bytes "\"my tv\"")) ∧
    name = bytes "my tv" :=
  ⟨fun _ => 7, bytes "my tv", ⟨bytes "SET device_name \"my tv\"", by decide +kernel, by decide +kernel⟩, rfl⟩

/-- The WFD elements of a link are heard in slot 0 as they were given if they are hexadecimal digits (any
text without white space, quotation mark and backslash); the empty text is sent as slot 0 without elements,
and an absent one is refused. -/
theorem elements_heard_partial (jk : Nat → Byte) (val : List Byte) (hl : val.length ≤ 1000000000) :
    (val ≠ [] → (Told (setElements jk true (some val)) (.elements (bytes "0") (some val)) ↔ Unquoted val)) ∧
    (val = [] → Told (setElements jk true (some val)) (.elements (bytes "0") none)) ∧
    (∃ v, Told (setElements jk true (some val)) (.elements (bytes "0") v)) ∧
    Refused (setElements jk true none) ∧ ∀ v, Refused (setElements jk false v) := by
  have hear2 : ∀ v, hear (bytes "WFD_SUBELEM_SET" ++ ch ' ' :: (bytes "0" ++ ch ' ' :: v)) = .elements (bytes "0") (some v) := by
    intro v
    rw [hear_app _ _ (by decide), hearWith, if_neg (by decide), if_pos rfl, divide_app _ v (by decide)]
  have e1 : val ≠ [] → setElements jk true (some val) =
      some (0, some (bytes "WFD_SUBELEM_SET" ++ ch ' ' :: (bytes "0" ++ ch ' ' :: Qstr.enc val))) := by
    intro h
    unfold setElements elementArgs
    rw [if_neg (by simp), if_neg (by simp [h])]
    have := line11 jk (bytes "WFD_SUBELEM_SET") (bytes "0") val (by decide) (by decide) (by sizes)
    rwa [encU (s := bytes "0") (by decide)] at this
  have e2 : val = [] → setElements jk true (some val) = some (0, some (bytes "WFD_SUBELEM_SET" ++ ch ' ' :: bytes "0")) := by
    intro h
    unfold setElements elementArgs
    rw [if_neg (by simp), if_pos (by simp [h])]
    have := line1 jk (bytes "WFD_SUBELEM_SET") (bytes "0") (by decide) (by decide) (by sizes)
    rwa [encU (s := bytes "0") (by decide)] at this
  have h2 : hear (bytes "WFD_SUBELEM_SET" ++ ch ' ' :: bytes "0") = .elements (bytes "0") none := by decide
  refine ⟨?_, ?_, ?_, rfl, fun v => by simp [setElements, Refused]⟩
  · intro h
    rw [told_iff (e1 h), hear2, ← enc_id]
    simp
  · intro h
    exact (told_iff (e2 h)).mpr h2
  · by_cases h : val = []
    · exact ⟨_, (told_iff (e2 h)).mpr h2⟩
    · exact ⟨_, (told_iff (e1 h)).mpr (hear2 _)⟩

example : Told (setElements (fun _ => 7) true (some (bytes "000600101c440032")))
    (.elements (bytes "0") (some (bytes "000600101c440032"))) :=
  ((elements_heard_partial _ _ (by decide +kernel)).1 (by decide)).mpr (by decide)

/-- What a link was given before is passed on when wpa_supplicant has switched Wi-Fi display on, as a
running one would be told; nothing is sent if Wi-Fi display is not there. -/
theorem elements_later (jk : Nat → Byte) (val : List Byte) (hl : val.length ≤ 1000000000) :
    (∃ d, setElements jk true (some val) = some (0, some d) ∧ initElements jk true (some val) = some [d]) ∧
    initElements jk false (some val) = some [] ∧
    ∃ d, initElements jk true none = some [d] ∧ hear d = .elements (bytes "0") none := by
  obtain ⟨-, -, ⟨v, d, e, -⟩, -⟩ := elements_heard_partial jk val hl
  refine ⟨⟨d, e, ?_⟩, rfl, ?_⟩
  · have : call jk (bytes "WFD_SUBELEM_SET") (elementArgs (some val)) = some (0, some d) := by
      rw [← e, setElements, if_neg (by simp)]
    unfold initElements
    rw [if_neg (by simp), this]
    rfl
  · have := line1 jk (bytes "WFD_SUBELEM_SET") (bytes "0") (by decide) (by decide) (by decide)
    refine ⟨bytes "WFD_SUBELEM_SET" ++ ch ' ' :: bytes "0", ?_, by decide⟩
    unfold initElements elementArgs
    rw [if_neg (by simp), if_pos (by simp), this, encU (s := bytes "0") (by decide)]
    rfl

example : ∃ d, setElements (fun _ => 7) true (some (bytes "0006")) = some (0, some d) ∧
    initElements (fun _ => 7) true (some (bytes "0006")) = some [d] :=
  (elements_later _ (bytes "0006") (by decide +kernel)).1

theorem method_eq (prov prov0 : Option (List Byte)) : (prov.orElse fun _ => prov0).getD (bytes "pbc") = method prov prov0 := by
  cases prov <;> cases prov0 <;> rfl

theorem secret_eq (pin pin0 : Option (List Byte)) : (pin.orElse fun _ => pin0) = secret pin pin0 := by
  cases pin <;> rfl

/-- Connecting by push button names the peer and the method and no PIN, even if one is there. -/
theorem connect_button (jk : Nat → Byte) (mac : List Byte) (prov pin prov0 pin0 : Option (List Byte))
    (hm : Unquoted mac) (hl : mac.length ≤ 1000000) (h : method prov prov0 = bytes "pbc") :
    Told (connect jk mac prov pin prov0 pin0) (.order (bytes "P2P_CONNECT") [mac, bytes "pbc"]) := by
  unfold connect
  simp only [method_eq]
  simp only [secret_eq]
  rw [if_pos h, line11 jk (bytes "P2P_CONNECT") mac (bytes "pbc") (by decide) (by decide) (by sizes), encU hm,
    encU (s := bytes "pbc") (by decide)]
  refine ⟨_, rfl, ?_⟩
  rw [hear_app _ _ (by decide), hearWith, if_neg (by decide), if_neg (by decide), words_app,
    words_one mac (plain_blank hm), words_one (bytes "pbc") (by decide)]
  rfl

example : Told (connect (fun _ => 7) (bytes "aa:bb:cc:dd:ee:ff") none (some (bytes "1234")) none none)
    (.order (bytes "P2P_CONNECT") [bytes "aa:bb:cc:dd:ee:ff", bytes "pbc"]) :=
  connect_button _ _ _ _ _ _ (by decide) (by decide) rfl

theorem connect_line (jk : Nat → Byte) (mac : List Byte) (prov pin prov0 pin0 : Option (List Byte)) (w p : List Byte)
    (hm : Unquoted mac) (hl : mac.length ≤ 1000000) (hp : p.length ≤ 1000000000)
    (h : method prov prov0 = w) (hw : w = bytes "display" ∨ w = bytes "pin" ∨ w = bytes "keypad")
    (hs : secret pin pin0 = some p) (hne : p ≠ []) :
    connect jk mac prov pin prov0 pin0 =
      some (0, some (bytes "P2P_CONNECT" ++ ch ' ' :: (mac ++ ch ' ' :: (Qstr.enc p ++ ch ' ' :: w)))) := by
  unfold connect
  simp only [method_eq]
  simp only [secret_eq, h, hs]
  have hpin : ¬ ((some p : Option (List Byte)) = none ∨ some p = some []) := by simp [hne]
  rcases hw with rfl | rfl | rfl
  · rw [if_neg (by decide), if_pos rfl, if_neg hpin,
      line12 jk (bytes "P2P_CONNECT") mac p (bytes "display") (by decide) (by decide) (by sizes), encU hm,
      encU (s := bytes "display") (by decide)]
  · rw [if_neg (by decide), if_neg (by decide), if_pos rfl, if_neg hpin,
      line12 jk (bytes "P2P_CONNECT") mac p (bytes "pin") (by decide) (by decide) (by sizes), encU hm,
      encU (s := bytes "pin") (by decide)]
  · rw [if_neg (by decide), if_neg (by decide), if_neg (by decide), if_pos rfl, if_neg hpin,
      line12 jk (bytes "P2P_CONNECT") mac p (bytes "keypad") (by decide) (by decide) (by sizes), encU hm,
      encU (s := bytes "keypad") (by decide)]

/-- Connecting with a PIN: the peer is always the first word and the method the last one; the words are
the peer, the PIN and the method exactly if the PIN has no white space, quotation mark or backslash. -/
theorem connect_pin_partial (jk : Nat → Byte) (mac : List Byte) (prov pin prov0 pin0 : Option (List Byte)) (w p : List Byte)
    (hm : Unquoted mac) (hl : mac.length ≤ 1000000) (hp : p.length ≤ 1000000000)
    (h : method prov prov0 = w) (hw : w = bytes "display" ∨ w = bytes "pin" ∨ w = bytes "keypad")
    (hs : secret pin pin0 = some p) (hne : p ≠ []) :
    (∃ ws, ws ≠ [] ∧ Told (connect jk mac prov pin prov0 pin0) (.order (bytes "P2P_CONNECT") (mac :: ws ++ [w]))) ∧
    (Told (connect jk mac prov pin prov0 pin0) (.order (bytes "P2P_CONNECT") [mac, p, w]) ↔ Unquoted p) := by
  have e := connect_line jk mac prov pin prov0 pin0 w p hm hl hp h hw hs hne
  have hwb : ch ' ' ∉ w := by rcases hw with rfl | rfl | rfl <;> decide
  have hh : hear (bytes "P2P_CONNECT" ++ ch ' ' :: (mac ++ ch ' ' :: (Qstr.enc p ++ ch ' ' :: w))) =
      .order (bytes "P2P_CONNECT") (mac :: words (Qstr.enc p) ++ [w]) := by
    rw [hear_app _ _ (by decide), hearWith, if_neg (by decide), if_neg (by decide), words_app,
      words_one mac (plain_blank hm), words_app, words_one w hwb]
    rfl
  refine ⟨⟨words (Qstr.enc p), words_ne _, (told_iff e).mpr hh⟩, ?_⟩
  rw [told_iff e, hh, ← enc_id]
  constructor
  · intro h
    simp only [Heard.order.injEq, true_and, List.cons_append, List.cons.injEq] at h
    have h' : words (Qstr.enc p) ++ [w] = [p] ++ [w] := h
    exact words_single _ _ (List.append_cancel_right h')
  · intro h
    have hu : Unquoted p := (enc_id p).mp h
    rw [h, words_one p (plain_blank hu)]
    rfl

example : Told (connect (fun _ => 7) (bytes "aa:bb:cc:dd:ee:ff") none (some (bytes "1234")) (some (bytes "keypad")) none)
    (.order (bytes "P2P_CONNECT") [bytes "aa:bb:cc:dd:ee:ff", bytes "1234", bytes "keypad"]) :=
  (connect_pin_partial _ _ _ _ _ _ _ _ (by decide) (by decide) (by decide +kernel) rfl (by decide) rfl (by decide)).2.mpr (by decide)

/-- Violation: a "PIN" can carry an option of its own, here `persistent`. -/
theorem pin_smuggles : ∃ jk pin args, Told (connect jk (bytes "aa:bb:cc:dd:ee:ff") (some (bytes "pin")) (some pin) none none)
    (.order (bytes "P2P_CONNECT") args) ∧ bytes "persistent" ∈ args :=
  ⟨fun _ => 7, bytes "1 persistent 2", [bytes "aa:bb:cc:dd:ee:ff", bytes "\"1", bytes "persistent", bytes "2\"", bytes "pin"],
    ⟨bytes "P2P_CONNECT aa:bb:cc:dd:ee:ff \"1 persistent 2\" pin", by decide +kernel, by decide +kernel⟩, by decide⟩

/-- Any other method, or a method that needs a PIN without one, is refused and nothing is sent. -/
theorem connect_refused (jk : Nat → Byte) (mac : List Byte) (prov pin prov0 pin0 : Option (List Byte))
    (h : method prov prov0 ≠ bytes "pbc")
    (h' : (method prov prov0 ≠ bytes "display" ∧ method prov prov0 ≠ bytes "pin" ∧ method prov prov0 ≠ bytes "keypad") ∨
      secret pin pin0 = none ∨ secret pin pin0 = some []) :
    Refused (connect jk mac prov pin prov0 pin0) := by
  unfold connect Refused
  simp only [method_eq]
  simp only [secret_eq]
  rw [if_neg h]
  rcases h' with ⟨h1, h2, h3⟩ | h'
  · rw [if_neg h1, if_neg h2, if_neg h3]
  · simp only [if_pos h', ite_self]

example : Refused (connect (fun _ => 7) (bytes "aa:bb:cc:dd:ee:ff") (some (bytes "keypad")) none none (some [])) :=
  connect_refused _ _ _ _ _ _ (by decide) (Or.inr (Or.inr rfl))

theorem one_word (jk : Nat → Byte) (c a : List Byte) (hc : Unquoted c) (hn : c ≠ []) (hs : ¬ (c = bytes "SET" ∨ c = bytes "P2P_SET"))
    (hs' : c ≠ bytes "WFD_SUBELEM_SET") (hl : Qstr.room [c, a] < 2147483648) :
    Told (call jk c [[.str (some a)]]) (.order c [a]) ↔ Unquoted a := by
  rw [told_iff (line1 jk c a hc hn hl), hear_app c _ (plain_blank hc), hearWith, if_neg hs, if_neg hs', ← enc_id]
  simp only [Heard.order.injEq, true_and]
  constructor
  · exact words_single _ _
  · intro h
    rw [h, words_one a (plain_blank ((enc_id a).mp h))]

/-- Asking for a peer, for the peer after one, and for the removal of a group name exactly the peer or the
group, provided the name has no white space, quotation mark or backslash (addresses have none). -/
theorem names_heard_partial (jk : Nat → Byte) (a : List Byte) (hl : a.length ≤ 1000000000) :
    (Told (askPeer jk a) (.order (bytes "P2P_PEER") [a]) ↔ Unquoted a) ∧
    (Told (askNext jk a) (.order (bytes "P2P_PEER") [bytes "NEXT-" ++ a]) ↔ Unquoted a) ∧
    (Told (removeGroup jk a) (.order (bytes "P2P_GROUP_REMOVE") [a]) ↔ Unquoted a) := by
  refine ⟨one_word jk _ a (by decide) (by decide) (by decide) (by decide) (by sizes), ?_,
    one_word jk _ a (by decide) (by decide) (by decide) (by decide) (by sizes)⟩
  have : Unquoted (bytes "NEXT-" ++ a) ↔ Unquoted a := by
    constructor
    · intro h c hc; exact h c (by simp [hc])
    · intro h c hc
      rcases List.mem_append.mp hc with hc | hc
      · exact (show Unquoted (bytes "NEXT-") by decide) c hc
      · exact h c hc
  rw [← this]
  exact one_word jk _ _ (by decide) (by decide) (by decide) (by decide) (by sizes)

example : Told (askNext (fun _ => 7) (bytes "aa:bb:cc:dd:ee:ff")) (.order (bytes "P2P_PEER") [bytes "NEXT-aa:bb:cc:dd:ee:ff"]) :=
  (names_heard_partial _ (bytes "aa:bb:cc:dd:ee:ff") (by decide +kernel)).2.1.mpr (by decide)

theorem line0 (jk : Nat → Byte) (c : List Byte) (hc : Unquoted c) (hn : c ≠ []) (hl : Qstr.room [c] < 2147483648) :
    call jk c [] = some (0, some c) := by
  have := call_line jk c [] hn hl
  rw [show ([] : List (List (List Byte))).flatten = [] from rfl, line_eq c (encU hc) hn] at this
  simpa using this

/-- Scanning is started and stopped by the commands for it, if wpa_supplicant runs and can do P2P; otherwise
the call is refused and nothing is sent. -/
theorem scan_heard (jk : Nat → Byte) (running hasP2p : Bool) :
    (running = true ∧ hasP2p = true →
      Told (startScan jk running hasP2p) (.order (bytes "P2P_FIND") []) ∧
      Told (stopScan jk running hasP2p) (.order (bytes "P2P_STOP_FIND") [])) ∧
    (¬ (running = true ∧ hasP2p = true) → Refused (startScan jk running hasP2p) ∧ Refused (stopScan jk running hasP2p)) := by
  constructor
  · rintro ⟨rfl, rfl⟩
    unfold startScan stopScan
    rw [if_neg (by decide), if_neg (by decide), line0 jk _ (by decide) (by decide) (by decide),
      line0 jk _ (by decide) (by decide) (by decide)]
    exact ⟨⟨_, rfl, by decide⟩, ⟨_, rfl, by decide⟩⟩
  · intro h
    unfold startScan stopScan Refused
    have h' : running = false ∨ hasP2p = false := by
      cases running <;> cases hasP2p <;> simp_all
    rw [if_pos h', if_pos h']
    exact ⟨rfl, rfl⟩

example : Told (startScan (fun _ => 7) true true) (.order (bytes "P2P_FIND") []) := ((scan_heard _ true true).1 ⟨rfl, rfl⟩).1

/-- What a wpa_supplicant that supports P2P is told when it has reported its status: the name of the link
(or "Miracle"), the frequencies it may not use, a request for its first peer, and, if it supports Wi-Fi
display, to switch that on; in this order and nothing else.  One that does not support P2P is told nothing. -/
theorem startup_heard_partial (jk : Nat → Byte) (p2p : Option (List Byte)) (display : Bool) (friendly : Option (List Byte))
    (hu : Unquoted (friendly.getD (bytes "Miracle"))) (hl : (friendly.getD (bytes "Miracle")).length ≤ 1000000000) :
    ∃ ds, startup jk p2p display friendly = some ds ∧ ds.map hear =
      if p2p = none ∨ p2p = some (bytes "DISABLED") then []
      else [.setting (bytes "SET") (bytes "device_name") (friendly.getD (bytes "Miracle")),
        .setting (bytes "P2P_SET") (bytes "disallow_freq") (bytes "5180-5900"),
        .order (bytes "P2P_PEER") [bytes "FIRST"]] ++
        if display then [.setting (bytes "SET") (bytes "wifi_display") (bytes "1")] else [] := by
  unfold startup
  generalize friendly.getD (bytes "Miracle") = nm at *
  by_cases h : p2p = none ∨ p2p = some (bytes "DISABLED")
  · exact ⟨[], by rw [if_pos h], by rw [if_pos h]; rfl⟩
  rw [if_neg h, if_neg h]
  have e1 := line2 jk (bytes "SET") (bytes "device_name") nm (by decide) (by decide) (by sizes)
  rw [encU (s := bytes "device_name") (by decide), encU hu] at e1
  have e2 : call jk (bytes "P2P_SET") [[.str (some (bytes "disallow_freq")), .str (some (bytes "5180-5900"))]] =
      some (0, some (bytes "P2P_SET disallow_freq 5180-5900")) := by
    rw [line2 jk (bytes "P2P_SET") (bytes "disallow_freq") (bytes "5180-5900") (by decide) (by decide) (by decide)]
    decide
  have e3 : call jk (bytes "P2P_PEER") [[.str (some (bytes "FIRST"))]] = some (0, some (bytes "P2P_PEER FIRST")) := by
    rw [line1 jk (bytes "P2P_PEER") (bytes "FIRST") (by decide) (by decide) (by decide)]
    decide
  have e4 : call jk (bytes "SET") [[.str (some (bytes "wifi_display")), .str (some (bytes "1"))]] =
      some (0, some (bytes "SET wifi_display 1")) := by
    rw [line2 jk (bytes "SET") (bytes "wifi_display") (bytes "1") (by decide) (by decide) (by decide)]
    decide
  have h1 := hear_setting (bytes "SET") (bytes "device_name") nm (Or.inl rfl) (by decide) (by decide)
  have h2 : hear (bytes "P2P_SET disallow_freq 5180-5900") = .setting (bytes "P2P_SET") (bytes "disallow_freq") (bytes "5180-5900") := by decide
  have h3 : hear (bytes "P2P_PEER FIRST") = .order (bytes "P2P_PEER") [bytes "FIRST"] := by decide
  have h4 : hear (bytes "SET wifi_display 1") = .setting (bytes "SET") (bytes "wifi_display") (bytes "1") := by decide
  cases display
  · refine ⟨[bytes "SET" ++ ch ' ' :: (bytes "device_name" ++ ch ' ' :: nm), bytes "P2P_SET disallow_freq 5180-5900", bytes "P2P_PEER FIRST"], ?_, ?_⟩
    · simp [row, e1, e2, e3]
    · simp [h1, h2, h3]
  · refine ⟨[bytes "SET" ++ ch ' ' :: (bytes "device_name" ++ ch ' ' :: nm), bytes "P2P_SET disallow_freq 5180-5900", bytes "P2P_PEER FIRST", bytes "SET wifi_display 1"], ?_, ?_⟩
    · simp [row, e1, e2, e3, e4]
    · simp [h1, h2, h3, h4]

example : ∃ ds, startup (fun _ => 7) (some (bytes "IDLE")) true none = some ds ∧ ds.map hear =
    [.setting (bytes "SET") (bytes "device_name") (bytes "Miracle"),
      .setting (bytes "P2P_SET") (bytes "disallow_freq") (bytes "5180-5900"),
      .order (bytes "P2P_PEER") [bytes "FIRST"], .setting (bytes "SET") (bytes "wifi_display") (bytes "1")] :=
  startup_heard_partial _ (some (bytes "IDLE")) true none (by decide) (by decide +kernel)

end Verif.Ask.Props
