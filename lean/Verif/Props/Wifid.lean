import Verif.Proof.WifidLog
/-! # Properties of links, peers and their objects on the bus

`s` is any state that any sequence of events can lead to: `run o zx {} es = some s`.
-/
namespace Verif.Wifid
open Verif.C Spec

/-- A small history used in the examples: two devices, two peers, one of them known to wpa_supplicant before it was ready. -/
def sampleOps : List Op :=
  [.scan {} 0 ⟨3, some (bytes "wlan0"), false⟩ true, .udev {} 0 2 ⟨7, some (bytes "wlan1"), false⟩ true,
   .status 3 true, .started 3, .peer {} 0 3 (bytes "0:1:2:3:4:5") true, .peer {} 1 3 (bytes "aa:bb:cc:dd:ee:ff") false,
   .friendly 3 (bytes "den") true true true]

/-- The state after it. -/
def sample : Mgr := (run {} true {} sampleOps).getD {}

theorem sample_run : run {} true {} sampleOps = some sample := by decide +kernel

/-! ### C50 -/

/-- **C50** (counters): the counters are the numbers of links and of peers. -/
theorem counts {o : Opts} {zx : Bool} {es : List Op} {s : Mgr} (h : run o zx {} es = some s) :
    s.cnt = s.links.length % W64 ∧ ∀ l ∈ s.links, l.cnt = l.peers.length % W64 :=
  ⟨(run_inv inv_init h).shape.cnt, fun l hl => ((run_inv inv_init h).shape.good l hl).cnt⟩

/-- **C50**: if memory suffices the enumeration lists the manager, every public link and every public peer, each exactly once, and does not leave its array. -/
theorem enumerate_exact {o : Opts} {zx : Bool} {es : List Op} {s : Mgr} (h : run o zx {} es = some s)
    (ht : (s.links.length + (s.links.map fun l => l.peers.length).sum + 2) * 8 < W64) (ok : Nat → Bool) (hok : ∀ i, ok i = true) :
    ∃ a, s.enumerate true ok = some (.ok a) ∧ a.Nodup ∧ ∀ x, x ∈ a ↔ x = root ∨ (∃ l ∈ s.links, l.pub = true ∧ x = linkPath l.idx)
      ∨ ∃ l ∈ s.links, l.pub = true ∧ ∃ p ∈ l.peers, p.pub = true ∧ x = peerPath p.mac l.idx := by
  have hs := (run_inv inv_init h).shape
  refine ⟨s.links.flatMap paths ++ [root], ?_, nodup_paths hs, ?_⟩
  · rw [enumerate_eq hs ok ht, if_pos ((allOk_iff _ _ _).mpr fun k _ => hok _), if_pos (hok _)]
  · intro x
    rw [List.mem_append, mem_paths, List.mem_singleton]
    constructor
    · rintro ((⟨l, hl, e⟩ | ⟨l, hl, p, hp, hpub, e⟩) | e)
      · exact Or.inr (Or.inl ⟨l, hl, (hs.good l hl).pub, e⟩)
      · exact Or.inr (Or.inr ⟨l, hl, (hs.good l hl).pub, p, hp, hpub, e⟩)
      · exact Or.inl e
    · rintro (e | ⟨l, hl, _, e⟩ | ⟨l, hl, _, p, hp, hpub, e⟩)
      · exact Or.inr e
      · exact Or.inl (Or.inl ⟨l, hl, e⟩)
      · exact Or.inl (Or.inr ⟨l, hl, p, hp, hpub, e⟩)

/-- **C50** refuted when memory is short: if the path of a link or peer cannot be allocated the result is undefined, because `r` is returned without having
been set. It is reported properly only for the array and for the path of the manager. -/
theorem enumerate_undefined {o : Opts} {zx : Bool} {es : List Op} {s : Mgr} (h : run o zx {} es = some s)
    (ht : (s.links.length + (s.links.map fun l => l.peers.length).sum + 2) * 8 < W64) (ok : Nat → Bool) :
    s.enumerate true ok = none ↔ ∃ i < (s.links.map fun l => 1 + (l.peers.filter (·.pub)).length).sum, ok i = false := by
  have hlen : (s.links.flatMap paths).length = (s.links.map fun l => 1 + (l.peers.filter (·.pub)).length).sum := by
    rw [List.length_flatMap]
    congr 1
    apply List.map_congr_left
    intro l _
    simp [paths, peerPaths, Nat.add_comm]
  rw [enumerate_eq (run_inv inv_init h).shape ok ht, hlen]
  generalize (s.links.map fun l => 1 + (l.peers.filter (·.pub)).length).sum = n
  cases hc : allOk ok 0 n with
  | true =>
    have := (allOk_iff ok 0 n).mp hc
    simp only [Nat.zero_add] at this
    rw [if_pos rfl]
    constructor
    · intro e; split at e <;> cases e
    · rintro ⟨i, hi, e⟩; rw [this i hi] at e; cases e
  | false =>
    rw [if_neg (by decide)]
    refine ⟨fun _ => ?_, fun _ => rfl⟩
    apply Classical.byContradiction
    intro hn
    have : allOk ok 0 n = true := (allOk_iff ok 0 n).mpr (by
      intro k hk
      rw [Nat.zero_add]
      cases ho : ok k with
      | true => rfl
      | false => exact absurd ⟨k, hk, ho⟩ hn)
    rw [hc] at this; cases this

example : (match sample.enumerate true (fun _ => true) with | some (.ok a) => a.length | _ => 0) = 4 ∧ sample.links.length = 2 ∧ sample.links.map (·.cnt) = [0, 2]
    ∧ (sample.links.map fun l => 1 + (l.peers.filter (·.pub)).length).sum = 3 ∧ (sample.enumerate true (fun i => i ≠ 2)).isNone = true := by decide +kernel

/-! ### C82 -/

/-- **C82**: a client that follows the signals `InterfacesAdded` and `InterfacesRemoved` from the start knows exactly the public links and peers. -/
theorem followers_exact {o : Opts} {zx : Bool} {es : List Op} {s : Mgr} (h : run o zx {} es = some s) :
    (∀ i, (seen s.log (.link i)).isSome = true ↔ ∃ l ∈ s.links, l.idx = i ∧ l.pub = true)
    ∧ ∀ m i, (seen s.log (.peer m i)).isSome = true ↔ ∃ l ∈ s.links, l.idx = i ∧ ∃ p ∈ l.peers, p.mac = m ∧ p.pub = true := by
  have hinv := run_inv inv_init h
  refine ⟨?_, ?_⟩
  · intro i
    rw [hinv.track]
    constructor
    · intro hv
      cases hl : s.find i with
      | none => simp [vis, hl] at hv
      | some l => exact ⟨l, (find_idx hl).2, (find_idx hl).1, (good_of hinv.shape hl).pub⟩
    · rintro ⟨l, hl, rfl, _⟩
      rw [vis_link (find_of_mem hinv.shape.nd hl)]; rfl
  · intro m i
    rw [hinv.track]
    constructor
    · intro hv
      cases hl : s.find i with
      | none => simp [vis, hl] at hv
      | some l =>
        rw [vis_peer hl] at hv
        have : peerVis l.peers m ≠ none := by intro e; rw [e] at hv; cases hv
        exact ⟨l, (find_idx hl).2, (find_idx hl).1, peerVis_some this⟩
    · rintro ⟨l, hl, rfl, p, hp, rfl, hpub⟩
      rw [vis_peer (find_of_mem hinv.shape.nd hl), peerVis_mem (hinv.shape.good l hl).nd hp, hpub]; rfl

/-- **C82** (order): objects are announced only while unknown, a peer only while its link is known, a link is removed only when none of its peers is known, properties
change only of known links, wpa_supplicant is only started and told names for known links. -/
theorem signals_sound {o : Opts} {zx : Bool} {es : List Op} {s : Mgr} (h : run o zx {} es = some s) : sound s.log :=
  (sound_iff _).mpr (run_inv inv_init h).snd

/-- What is missing: an object may be reported as removed that never existed, when creating a link fails. -/
example : ((run {} true {} [.scan { text := false } 0 ⟨3, some (bytes "wlan0"), false⟩ true]).map (·.log)) = some [.removed (.link 3)] := by decide +kernel
example : seen sample.log (.peer (bytes "00:01:02:03:04:05") 3) = some none ∧ seen sample.log (.peer (bytes "aa:bb:cc:dd:ee:ff") 3) = none
    ∧ (seen sample.log (.link 7)).isSome = true := by decide +kernel
example : ((run {} true sample [.udev {} 0 0 ⟨3, none, false⟩ true]).map fun s => (s.log.drop sample.log.length)) = some
    [.removed (.peer (bytes "00:01:02:03:04:05") 3), .removed (.link 3)] := by decide +kernel

/-! ### C83 -/

/-- **C83**: different objects have different paths, and none has the path of the manager. -/
theorem paths_differ {o : Opts} {zx : Bool} {es : List Op} {s : Mgr} (h : run o zx {} es = some s) (a b : Obj)
    (ha : (seen s.log a).isSome = true) (hb : (seen s.log b).isSome = true) : (a.path = b.path → a = b) ∧ a.path ≠ root := by
  have hlen : ∀ ob : Obj, (seen s.log ob).isSome = true → ∀ m i, ob = .peer m i → m.length = 17 := by
    intro ob hob m i e
    subst e
    obtain ⟨l, hl, _, p, hp, rfl, _⟩ := ((followers_exact h).2 m i).mp hob
    exact canon_length (((run_inv inv_init h).shape.good l hl).canon p hp)
  refine ⟨path_inj (hlen a ha) (hlen b hb), ?_⟩
  cases a with
  | link i => exact fun e => (root_ne _).1 e.symm
  | peer m i => exact fun e => (root_ne _).2 e.symm

/-- **C83** (links): the path of a link leads back to it. -/
theorem link_found {o : Opts} {zx : Bool} {es : List Op} {s : Mgr} (h : run o zx {} es = some s) (l : Link) (hl : l ∈ s.links) (hi : l.idx < W32) :
    s.findLink (linkPath l.idx) = some l := by
  have hs := (run_inv inv_init h).shape
  unfold Mgr.findLink linkPath
  rw [decode_pre, Option.bind_some, linkByLabel_dec _ _ hi, find_of_mem hs.nd hl, Option.bind_some, if_pos (hs.good l hl).pub]

/-- **C83** (peers): the path of a public peer leads back to it. -/
theorem peer_found {o : Opts} {zx : Bool} {es : List Op} {s : Mgr} (h : run o zx {} es = some s) (l : Link) (hl : l ∈ s.links) (hi : l.idx < W32) (p : Peer) (hp : p ∈ l.peers)
    (hpub : p.pub = true) : s.findPeer zx (peerPath p.mac l.idx) = some (l.idx, p) := by
  have hs := (run_inv inv_init h).shape
  have hg := hs.good l hl
  have hc := hg.canon p hp
  unfold Mgr.findPeer peerPath
  rw [decode_pre, Option.bind_some, if_pos (by simp), (span_at _ _ (canon_plain hc)).1, (span_at _ _ (canon_plain hc)).2, List.drop_one, List.tail_cons,
    linkByLabel_dec _ _ hi, find_of_mem hs.nd hl, Option.bind_some, if_neg (by rw [hg.pub]; decide)]
  unfold Link.peerByLabel
  rw [canon_again hc, peer_find hg.nd hp, Option.bind_some, if_pos hpub]

/-- **C83** (nothing else): whatever the path, what is found is public and there. -/
theorem found_public {s : Mgr} (zx : Bool) (x : Path) : (∀ l, s.findLink x = some l → l ∈ s.links ∧ l.pub = true)
    ∧ ∀ i p, s.findPeer zx x = some (i, p) → ∃ l ∈ s.links, l.idx = i ∧ l.pub = true ∧ p ∈ l.peers ∧ p.pub = true := by
  have hlab : ∀ lab l, s.linkByLabel lab = some l → l ∈ s.links := by
    intro lab l hl
    unfold Mgr.linkByLabel at hl
    simp only at hl
    split at hl
    · cases hl
    · exact (find_idx hl).2
  refine ⟨?_, ?_⟩
  · intro l h
    unfold Mgr.findLink at h
    simp only [Option.bind_eq_some_iff] at h
    obtain ⟨lab, _, l', h1, h2⟩ := h
    split at h2
    · rename_i hp; cases h2; exact ⟨hlab _ _ h1, hp⟩
    · cases h2
  · intro i p h
    unfold Mgr.findPeer at h
    simp only [Option.bind_eq_some_iff] at h
    obtain ⟨lab, _, h⟩ := h
    split at h
    · simp only [Option.bind_eq_some_iff] at h
      obtain ⟨l, h1, h⟩ := h
      split at h
      · cases h
      · rename_i hpub
        simp only [Option.bind_eq_some_iff] at h
        obtain ⟨q, h2, h3⟩ := h
        split at h3
        · rename_i hq
          cases h3
          exact ⟨l, hlab _ _ h1, rfl, by simpa using hpub, List.mem_of_find?_eq_some h2, hq⟩
        · cases h3
    · simp only [Option.bind_eq_some_iff] at h
      obtain ⟨r, h1, h2⟩ := h
      split at h2
      · rename_i hq
        cases h2
        obtain ⟨l, hl, h3⟩ := List.exists_of_findSome?_eq_some h1
        simp only [Option.map_eq_some_iff] at h3
        obtain ⟨q, h4, h5⟩ := h3
        cases h5
        exact ⟨l, (List.mem_filter.mp hl).1, rfl, (List.mem_filter.mp hl).2, List.mem_of_find?_eq_some h4, hq⟩
      · cases h2

example : (sample.findPeer true (peerPath (bytes "00:01:02:03:04:05") 3)).isSome = true ∧ (sample.findPeer true (peerPath (bytes "aa:bb:cc:dd:ee:ff") 3)).isSome = false
    ∧ (sample.findLink (linkPath 7)).isSome = true ∧ linkPath 7 = bytes "/org/freedesktop/miracle/wifi/link/_37"
    ∧ peerPath (bytes "00:01:02:03:04:05") 3 = bytes "/org/freedesktop/miracle/wifi/peer/_300_3a01_3a02_3a03_3a04_3a05_403" := by decide +kernel
/-- A label without the number of the link: a peer that is not public hides a public one on a link behind. -/
example : ((run {} true sample [.started 7, .peer {} 0 7 (bytes "00:01:02:03:04:05") false]).map fun s =>
    (s.findPeer true (peerPre ++ ch '/' :: bytes "00_3a01_3a02_3a03_3a04_3a05"), (sample.findPeer true (peerPre ++ ch '/' :: bytes "00_3a01_3a02_3a03_3a04_3a05")).isSome))
    = some (none, true) := by decide +kernel

/-! ### C84 -/

/-- **C84** (names told): the name wpa_supplicant is told is the friendly name every follower of the signals knows at that time ("Miracle" if there is none), or
it is told to the followers right after. -/
theorem names_told_partial {o : Opts} {zx : Bool} {es : List Op} {s : Mgr} (h : run o zx {} es = some s) (a b : List Sig) (i : Nat) (n : List Byte)
    (e : s.log = a ++ .device i n :: b) : (∃ v, seen a (.link i) = some (some v) ∧ n = v.friendly.getD (bytes "Miracle"))
      ∨ b.head? = some (.changed (.link i) (.friendly (some n))) := by
  have ht := (run_told (told_init o ⟨true, true, true⟩) (fun e _ => fits_all o e) h).tell
  rw [e] at ht
  exact tellFrom_at ht

/-- **C84** refuted: unless a user sets a name, wpa_supplicant is told "Miracle" and its configuration says "unknown", whatever the name of the host: the
code that is to pass the host name on never runs for a link (`link_supplicant_started` returns early because every link is public;
`manager_add_udev_link` looks at `managed` before it is set). -/
theorem host_ignored {o : Opts} {zx : Bool} {es : List Op} {s : Mgr} (h : run o zx {} es = some s)
    (hes : ∀ e ∈ es, ∀ i n a b c, e ≠ .friendly i n a b c) :
    (∀ i n, Sig.device i n ∈ s.log → n = bytes "Miracle") ∧ (∀ l ∈ s.links, l.friendly = none)
    ∧ ∀ i text, Sig.config i text ∈ s.log → text = config { idx := i, name := [], friendly := none, methods := o.methods, driver := o.driver, intent := if o.intent ≤ 15 then o.intent else 0 } := by
  have hfit : ∀ e ∈ es, Fits o ⟨false, true, true⟩ e := by
    intro e he
    cases e with
    | friendly i n a b c => exact absurd rfl (hes _ he i n a b c)
    | _ => simp [Fits]
  have ht := run_told (told_init o ⟨false, true, true⟩) hfit h
  have hun := told_unnamed rfl ht.tell
  have hpre : ∀ a g b i v, s.log = a ++ g :: b → seen a (.link i) = some (some v) → v.friendly = none := by
    intro a g b i v e hv
    exact seen_unnamed a _ none (fun x hx => hun x (by rw [e]; simp [hx])) (by intro v e; cases e) v hv
  refine ⟨?_, ?_, ?_⟩
  · intro i n hm
    obtain ⟨a, b, e⟩ := List.append_of_mem hm
    have h1 := ht.tell
    rw [e] at h1
    rcases tellFrom_at h1 with ⟨v, hv, hn⟩ | hb
    · rw [hn, hpre a _ b i v e hv]; rfl
    · have : unnamed (.changed (.link i) (.friendly (some n))) := hun _ (by rw [e]; simp [List.mem_of_mem_head? hb])
      exact absurd this id
  · intro l hl
    have hv := vis_link (find_of_mem ht.inv.shape.nd hl)
    rw [← ht.inv.track] at hv
    exact seen_unnamed s.log _ none hun (by intro v e; cases e) _ hv
  · intro i text hm
    obtain ⟨a, b, e⟩ := List.append_of_mem hm
    have h1 := ht.tell
    rw [e] at h1
    obtain ⟨_, v, hv, hn⟩ := tellFrom_at h1
    rw [hn, hpre a _ b i v e hv]
    rfl

/-- A host with a name, no user: the names told. -/
example : ((run { host := some (bytes "laptop") } true {} [.scan {} 0 ⟨3, some (bytes "wlan0"), false⟩ true, .status 3 false, .started 3]).map fun s =>
    (s.log.contains (.device 3 (bytes "Miracle")), s.links.map (·.friendly), s.log.filterMap fun g => match g with | .config _ t => (settings t).head? | _ => none))
    = some (true, [none], [(bytes "device_name", bytes "unknown")]) := by decide +kernel
/-- A name set by a user is told, and told again to the next wpa_supplicant. -/
example : ((run {} true sample [.lost 3, .status 3 false]).map fun s => s.log.getLast?) = some (some (.device 3 (bytes "den"))) := by decide +kernel

/-! ### C85 -/

/-- **C85**: if no text has a newline, the settings of the file wpa_supplicant is started with are the friendly name all followers know, the methods and the driver
parameter of the command line, and an intent of at most 15. -/
theorem config_exact_partial {o : Opts} {zx : Bool} {es : List Op} {s : Mgr} (h : run o zx {} es = some s) (a b : List Sig) (i : Nat) (text : List Byte)
    (e : s.log = a ++ .config i text :: b) : ∃ v, seen a (.link i) = some (some v)
      ∧ ((∀ n, v.friendly = some n ∨ o.methods = some n ∨ o.driver = some n → (10 : Byte) ∉ n) →
        settings text = [(bytes "device_name", v.friendly.getD (bytes "unknown")), (bytes "device_type", bytes "1-0050F204-1"),
          (bytes "config_methods", o.methods.getD (bytes "pbc")), (bytes "driver_param", o.driver.getD []), (bytes "ap_scan", bytes "1"),
          (bytes "p2p_go_intent", dec (if o.intent ≤ 15 then o.intent else 0))]) := by
  have ht := (run_told (told_init o ⟨true, true, true⟩) (fun e _ => fits_all o e) h).tell
  rw [e] at ht
  obtain ⟨_, v, hv, hn⟩ := tellFrom_at ht
  refine ⟨v, hv, ?_⟩
  intro hno
  rw [hn]
  exact config_settings _ (fun n e => hno n (Or.inl e)) (fun n e => hno n (Or.inr (Or.inl e))) (fun n e => hno n (Or.inr (Or.inr e)))

/-- **C85** refuted for names with a newline: whoever may set `FriendlyName` can add any setting to the file. -/
theorem config_injection (l : Link) (n k v : List Byte) (hn : (10 : Byte) ∉ n) (hk : (10 : Byte) ∉ k) (hv : (10 : Byte) ∉ v) (h0 : k.head? ≠ some (ch '#')) (hne : k ≠ [])
    (he : ch '=' ∉ k) (hl : l.friendly = some (n ++ 10 :: (k ++ ch '=' :: v))) : (k, v) ∈ settings (config l) := by
  unfold config
  rw [hl]
  simp only [List.append_assoc, Option.getD_some]
  have e1 : ∀ y, bytes "# Generated configuration - DO NOT EDIT!\n" ++ y = bytes "# Generated configuration - DO NOT EDIT!" ++ 10 :: y := by
    intro y
    have : bytes "# Generated configuration - DO NOT EDIT!\n" = bytes "# Generated configuration - DO NOT EDIT!" ++ [10] := by decide
    rw [this]; simp
  have e2 : ∀ y, bytes "device_name=" ++ y = bytes "device_name" ++ ch '=' :: y := by
    intro y
    have : bytes "device_name=" = bytes "device_name" ++ [ch '='] := by decide
    rw [this]; simp
  have e3 : ∀ y, bytes "\n" ++ y = 10 :: y := by intro y; rfl
  rw [e1, settings_comment _ _ (by decide) (by decide), e2]
  simp only [List.cons_append, List.append_assoc, e3]
  have s1 := fun y => settings_line (bytes "device_name") n y (by decide) (by decide) (by decide) (by decide) hn
  have s2 := fun y => settings_line k v y h0 hne he hk hv
  simp only [List.append_assoc, List.cons_append] at s1 s2
  rw [s1, s2]
  simp

/-- A user of the bus makes wpa_supplicant, which runs as root, load a library of their choice. -/
example : ((run { lazy := true } true {} [.scan {} 0 ⟨3, some (bytes "wlan0"), false⟩ true, .friendly 3 (bytes "x\nopensc_engine_path=/tmp/evil.so") true false true,
    .manage 3 true true]).map fun s => s.log.any fun g => match g with | .config _ t => (settings t).contains (bytes "opensc_engine_path", bytes "/tmp/evil.so") | _ => false)
    = some true := by decide +kernel
example : ((run { intent := 16, methods := some (bytes "keypad") } true {} [.scan {} 0 ⟨3, some (bytes "wlan0"), false⟩ true]).map fun s => s.log.filterMap fun g =>
    match g with | .config _ t => some ((settings t).drop 2) | _ => none) = some [[(bytes "config_methods", bytes "keypad"), (bytes "driver_param", []), (bytes "ap_scan", bytes "1"),
    (bytes "p2p_go_intent", bytes "0")]] := by decide +kernel

/-! ### C86 -/

/-- **C86** (lazy): with the option for it no link is managed and no wpa_supplicant is started, unless a client asks for it. -/
theorem lazy_unmanaged {o : Opts} {zx : Bool} {es : List Op} {s : Mgr} (h : run o zx {} es = some s) (hz : o.lazy = true) (hes : ∀ e ∈ es, ∀ i ok, e ≠ .manage i true ok) :
    (∀ l ∈ s.links, l.managed = false) ∧ ∀ i text, Sig.config i text ∉ s.log := by
  have hfit : ∀ e ∈ es, Fits o ⟨true, false, true⟩ e := by
    intro e he
    cases e with
    | manage i set ok =>
      intro hs
      subst hs
      exact absurd rfl (hes _ he i ok)
    | _ => simp [Fits, hz]
  have ht := run_told (told_init o ⟨true, false, true⟩) hfit h
  refine ⟨?_, ?_⟩
  · intro l hl
    cases hm : l.managed with
    | false => rfl
    | true => exact absurd ((ht.conf l hl).man hm) (by decide)
  · intro i text hm
    obtain ⟨a, b, e⟩ := List.append_of_mem hm
    have h1 := ht.tell
    rw [e] at h1
    exact absurd (tellFrom_at h1).1 (by decide)

/-- **C86** (tags): in a build that relies on udev, after an event of a known device it is managed exactly if it has the tag, if wpa_supplicant can be started. -/
theorem rely_tag {o : Opts} {s : Mgr} (a : Alloc) (pos act : Nat) (d : Dev) (hr : o.rely = true) (h0 : d.idx ≠ 0) (hk : (s.find d.idx).isSome = true) (ha : act ≠ 0) :
    ∃ s' l, s.udev o a pos act d true = some s' ∧ s'.find d.idx = some l ∧ l.managed = (d.tag && !o.lazy) := by
  have hset : ∀ (s : Mgr) (b : Bool), (s.find d.idx).isSome = true → ∃ l, (s.setManaged d.idx b true).find d.idx = some l ∧ l.managed = b := by
    intro s b hk
    obtain ⟨l, hl⟩ := Option.isSome_iff_exists.mp hk
    unfold Mgr.setManaged
    rw [hl]
    simp only
    split
    · rename_i e; exact ⟨l, hl, e⟩
    · cases b with
      | true =>
        rw [if_pos rfl, if_pos trivial, find_emit, find_update _ _ _ _ (by intro _; rfl), if_pos rfl, hl]
        exact ⟨_, rfl, rfl⟩
      | false =>
        rw [if_neg (by decide), find_update _ _ _ _ (by intro _; rfl), if_pos rfl, find_dropPeers hl, if_pos rfl]
        exact ⟨_, rfl, rfl⟩
  have hren : ∀ (n : List Byte) (ok : Bool), ((s.rename d.idx n ok).find d.idx).isSome = true := by
    intro n ok
    obtain ⟨l, hl⟩ := Option.isSome_iff_exists.mp hk
    unfold Mgr.rename
    rw [hl]
    simp only
    split
    · exact hk
    · rw [find_emit, find_update _ _ _ _ (by intro _; rfl), if_pos rfl, hl]; rfl
  unfold Mgr.udev
  rw [if_neg h0, if_pos hk, if_neg ha]
  simp only [hr, if_true]
  split
  · obtain ⟨l, h1, h2⟩ := hset _ (d.tag && !o.lazy) (hren (d.name.getD []) a.text)
    exact ⟨_, l, rfl, h1, h2⟩
  · obtain ⟨l, h1, h2⟩ := hset _ (d.tag && !o.lazy) hk
    exact ⟨_, l, rfl, h1, h2⟩

/-- **C86** (interface): as long as no device is renamed, there are links only for the chosen interface and never for one made for a P2P group. -/
theorem interface_partial {o : Opts} {zx : Bool} {es : List Op} {s : Mgr} (h : run o zx {} es = some s) (hes : ∀ e ∈ es, ∀ a pos d ok, e ≠ .udev a pos 1 d ok) (l : Link) (hl : l ∈ s.links) :
    (∀ n, o.iface = some n → l.name = n) ∧ (bytes "p2p-").isPrefixOf l.name = false := by
  have hfit : ∀ e ∈ es, Fits o ⟨true, true, false⟩ e := by
    intro e he
    cases e with
    | udev a pos act d ok =>
      refine ⟨fun _ => rfl, ?_⟩
      intro ha
      subst ha
      exact absurd rfl (hes _ he a pos d ok)
    | _ => simp [Fits]
  have hc := (run_told (told_init o ⟨true, true, false⟩) hfit h).conf l hl
  refine ⟨?_, ?_⟩
  · intro n hn
    rcases hc.iface with e | e | e
    · cases e
    · rw [hn] at e; cases e
    · rw [hn] at e; cases e; rfl
  · rcases hc.nop2p with e | e
    · cases e
    · exact e

/-- **C86** refuted with renames: a managed device that is renamed stays managed under a name that was not chosen. -/
example : ((run { iface := some (bytes "wlan0") } true {} [.scan {} 0 ⟨3, some (bytes "wlan0"), false⟩ true, .udev {} 0 1 ⟨3, some (bytes "p2p-x"), false⟩ true]).map fun s =>
    s.links.map fun l => (l.name, l.managed)) = some [(bytes "p2p-x", true)] := by decide +kernel

/-- **C86** (undefined): the daemon does what is undefined exactly when, with a chosen interface and a build that does not rely on udev, an event for a known device has no name. -/
theorem undefined_iff (o : Opts) (zx : Bool) (s : Mgr) (e : Op) :
    step o zx s e = none ↔ ∃ a pos act d ok, e = .udev a pos act d ok ∧ d.idx ≠ 0 ∧ (s.find d.idx).isSome = true ∧ act ≠ 0 ∧ o.rely = false ∧ o.iface.isSome = true ∧ d.name = none := by
  constructor
  · intro h
    cases e with
    | udev a pos act d ok =>
      have h : s.udev o a pos act d ok = none := h
      refine ⟨a, pos, act, d, ok, rfl, ?_⟩
      unfold Mgr.udev at h
      split at h
      · cases h
      · rename_i h0
        split at h
        · rename_i hk
          split at h
          · cases h
          · rename_i ha
            simp only at h
            split at h
            · cases h
            · rename_i hr
              split at h
              · rename_i hc
                exact ⟨h0, hk, ha, by simpa using hr, hc.1, hc.2⟩
              · split at h <;> cases h
        · split at h <;> cases h
    | _ => cases h
  · rintro ⟨a, pos, act, d, ok, rfl, h0, hk, ha, hr, hi, hn⟩
    show s.udev o a pos act d ok = none
    unfold Mgr.udev
    rw [if_neg h0, if_pos hk, if_neg ha]
    simp [hr, hi, hn]

example : run { iface := some (bytes "wlan0") } true {} [.scan {} 0 ⟨3, some (bytes "wlan0"), false⟩ true, .udev {} 0 2 ⟨3, none, false⟩ true] = none := by decide +kernel
example : ((run { lazy := true } true {} [.scan {} 0 ⟨3, some (bytes "wlan0"), false⟩ true, .udev {} 0 2 ⟨3, some (bytes "wlan0"), true⟩ true]).map fun s => s.links.map (·.managed))
    = some [false] := by decide +kernel
example : ((run { rely := true } true {} [.scan {} 0 ⟨3, some (bytes "wlan0"), false⟩ true, .udev {} 0 2 ⟨3, some (bytes "wlan0"), true⟩ true]).map fun s => s.links.map (·.managed))
    = some [true] := by decide +kernel

/-! ### C87 -/

/-- **C87**: a client that keeps the properties announced and changed has the right interface name, friendly name and wifi-display sub-elements of every link. -/
theorem cache_right_partial {o : Opts} {zx : Bool} {es : List Op} {s : Mgr} (h : run o zx {} es = some s) (l : Link) (hl : l ∈ s.links) :
    ∃ v, seen s.log (.link l.idx) = some (some v) ∧ v.name = l.name ∧ v.friendly = l.friendly ∧ v.wfd = l.wfd := by
  have hinv := run_inv inv_init h
  refine ⟨quiet l, ?_, rfl, rfl, rfl⟩
  rw [hinv.track, vis_link (find_of_mem hinv.shape.nd hl)]

/-- **C87** refuted for `Managed`: its change is never signalled, so to such a client no link is ever managed. -/
theorem managed_untold {o : Opts} {zx : Bool} {es : List Op} {s : Mgr} (h : run o zx {} es = some s) (i : Nat) (v : View) (hv : seen s.log (.link i) = some (some v)) : v.managed = false := by
  rw [(run_inv inv_init h).track] at hv
  cases hl : s.find i with
  | none => simp [vis, hl] at hv
  | some l => rw [vis_link hl] at hv; cases hv; rfl

example : sample.links.map (fun l => (l.idx, l.managed)) = [(7, true), (3, true)] ∧ seen sample.log (.link 3) = some (some ⟨bytes "wlan0", some (bytes "den"), none, false⟩) := by decide +kernel
example : ((run {} true sample [.udev {} 0 1 ⟨3, some (bytes "wifi3"), false⟩ true]).map fun s => seen s.log (.link 3)) = some (some (some ⟨bytes "wifi3", some (bytes "den"), none, false⟩)) := by
  decide +kernel

end Verif.Wifid
