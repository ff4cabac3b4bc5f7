import Verif.Proof.Mirror
/-! # Lemmas about the messages to the copy -/
namespace Verif.Mirror
open Verif.C

theorem last_cons (q : List Byte × Val) (r : Props) (t : String) : last (q :: r) t = (last r t).or (if q.1 = bytes t then some q.2 else none) := by
  unfold last
  by_cases h : q.1 = bytes t
  · rw [List.filter_cons_of_pos (by simp [h]), if_pos h]
    cases hf : r.filter (fun q => decide (q.1 = bytes t)) with
    | nil => simp
    | cons a as =>
      rw [List.getLast?_cons_cons]
      obtain ⟨x, hx⟩ := Option.isSome_iff_exists.mp (show (a :: as).getLast?.isSome = true by simp)
      rw [hx]; rfl
  · rw [List.filter_cons_of_neg (by simp [h]), if_neg h]
    simp

theorem last_mem {r : Props} {t : String} {v : Val} (h : last r t = some v) : (bytes t, v) ∈ r := by
  unfold last at h
  obtain ⟨q, hq, rfl⟩ := Option.map_eq_some_iff.mp h
  have := List.mem_of_getLast? hq
  obtain ⟨h1, h2⟩ := List.mem_filter.mp this
  simp only [decide_eq_true_eq] at h2
  rw [← h2]
  exact h1

theorem bind_last {α : Type} (f : Val → Option α) (q : List Byte × Val) (r : Props) (t : String) (h : ∀ q' ∈ r, q'.1 = bytes t → (f q'.2).isSome) :
    (last (q :: r) t).bind f = ((last r t).bind f).or (if q.1 = bytes t then f q.2 else none) := by
  rw [last_cons]
  cases hl : last r t with
  | none => simp only [Option.none_or, Option.bind_none]; split <;> rfl
  | some v =>
    have := h _ (last_mem hl) rfl
    obtain ⟨x, hx⟩ := Option.isSome_iff_exists.mp this
    simp [hx]

theorem names_peer : [bytes "P2PMac", bytes "FriendlyName", bytes "Connected", bytes "Interface", bytes "LocalAddress", bytes "RemoteAddress", bytes "WfdSubelements"].Nodup ∧
    [bytes "WfdSubelements", bytes "RemoteAddress", bytes "LocalAddress", bytes "Interface", bytes "Connected", bytes "FriendlyName", bytes "P2PMac"].Nodup := by
  decide +kernel

theorem names_link : [bytes "InterfaceIndex", bytes "InterfaceName", bytes "FriendlyName", bytes "Managed", bytes "P2PScanning", bytes "WfdSubelements"].Nodup ∧
    [bytes "WfdSubelements", bytes "P2PScanning", bytes "Managed", bytes "FriendlyName", bytes "InterfaceName", bytes "InterfaceIndex"].Nodup := by
  decide +kernel

/-- The types of a peer's property. -/
theorem peerTyped_cons (q : List Byte × Val) (r : Props) : peerTyped (q :: r) = true ↔
    ((q.1 ∈ [bytes "P2PMac", bytes "FriendlyName", bytes "Interface", bytes "LocalAddress", bytes "RemoteAddress", bytes "WfdSubelements"] → q.2.str.isSome = true) ∧
    (q.1 = bytes "Connected" → q.2.bool.isSome = true)) ∧ peerTyped r = true := by
  unfold peerTyped
  rw [List.all_cons, Bool.and_eq_true, Bool.and_eq_true, decide_eq_true_eq, decide_eq_true_eq]

theorem linkTyped_cons (q : List Byte × Val) (r : Props) : linkTyped (q :: r) = true ↔
    (((q.1 ∈ [bytes "InterfaceName", bytes "FriendlyName", bytes "WfdSubelements"] → q.2.str.isSome = true) ∧
    (q.1 ∈ [bytes "Managed", bytes "P2PScanning"] → q.2.bool.isSome = true)) ∧ (q.1 = bytes "InterfaceIndex" → q.2.uint.isSome = true)) ∧ linkTyped r = true := by
  unfold linkTyped
  rw [List.all_cons, Bool.and_eq_true, Bool.and_eq_true, Bool.and_eq_true, decide_eq_true_eq, decide_eq_true_eq, decide_eq_true_eq]

theorem peerTyped_str {r : Props} (h : peerTyped r = true) {t : String} (ht : bytes t ∈ [bytes "P2PMac", bytes "FriendlyName", bytes "Interface", bytes "LocalAddress", bytes "RemoteAddress", bytes "WfdSubelements"]) :
    ∀ q ∈ r, q.1 = bytes t → q.2.str.isSome = true := by
  induction r with
  | nil => simp
  | cons a as ih =>
    rw [peerTyped_cons] at h
    intro q hq e
    rcases List.mem_cons.mp hq with rfl | hq
    · exact h.1.1 (by rw [e]; exact ht)
    · exact ih h.2 q hq e

theorem peerTyped_conn {r : Props} (h : peerTyped r = true) : ∀ q ∈ r, q.1 = bytes "Connected" → q.2.bool.isSome = true := by
  induction r with
  | nil => simp
  | cons a as ih =>
    rw [peerTyped_cons] at h
    intro q hq e
    rcases List.mem_cons.mp hq with rfl | hq
    · exact h.1.2 e
    · exact ih h.2 q hq e

theorem linkTyped_str {r : Props} (h : linkTyped r = true) {t : String} (ht : bytes t ∈ [bytes "InterfaceName", bytes "FriendlyName", bytes "WfdSubelements"]) :
    ∀ q ∈ r, q.1 = bytes t → q.2.str.isSome = true := by
  induction r with
  | nil => simp
  | cons a as ih =>
    rw [linkTyped_cons] at h
    intro q hq e
    rcases List.mem_cons.mp hq with rfl | hq
    · exact h.1.1.1 (by rw [e]; exact ht)
    · exact ih h.2 q hq e

theorem linkTyped_bool {r : Props} (h : linkTyped r = true) {t : String} (ht : bytes t ∈ [bytes "Managed", bytes "P2PScanning"]) :
    ∀ q ∈ r, q.1 = bytes t → q.2.bool.isSome = true := by
  induction r with
  | nil => simp
  | cons a as ih =>
    rw [linkTyped_cons] at h
    intro q hq e
    rcases List.mem_cons.mp hq with rfl | hq
    · exact h.1.1.2 (by rw [e]; exact ht)
    · exact ih h.2 q hq e

theorem linkTyped_idx {r : Props} (h : linkTyped r = true) : ∀ q ∈ r, q.1 = bytes "InterfaceIndex" → q.2.uint.isSome = true := by
  induction r with
  | nil => simp
  | cons a as ih =>
    rw [linkTyped_cons] at h
    intro q hq e
    rcases List.mem_cons.mp hq with rfl | hq
    · exact h.1.2 e
    · exact ih h.2 q hq e

/-- One property of a peer is read. -/
theorem read_peer (u : PeerUpd) (q : List Byte × Val)
    (h1 : q.1 ∈ [bytes "P2PMac", bytes "FriendlyName", bytes "Interface", bytes "LocalAddress", bytes "RemoteAddress", bytes "WfdSubelements"] → q.2.str.isSome = true)
    (h2 : q.1 = bytes "Connected" → q.2.bool.isSome = true) :
    u.read q.1 q.2 = some
      { mac := (if q.1 = bytes "P2PMac" then q.2.str else none).or u.mac
        friendly := (if q.1 = bytes "FriendlyName" then q.2.str else none).or u.friendly
        conn := (if q.1 = bytes "Connected" then q.2.bool else none).or u.conn
        iface := (if q.1 = bytes "Interface" then q.2.str else none).or u.iface
        loc := (if q.1 = bytes "LocalAddress" then q.2.str else none).or u.loc
        rem := (if q.1 = bytes "RemoteAddress" then q.2.str else none).or u.rem
        wfd := (if q.1 = bytes "WfdSubelements" then q.2.str else none).or u.wfd } := by
  obtain ⟨d, d'⟩ := names_peer
  simp only [List.nodup_cons, List.mem_cons, not_or, List.not_mem_nil, not_false_eq_true, true_and, and_true, List.nodup_nil] at d d'
  obtain ⟨t, v⟩ := q
  unfold PeerUpd.read
  simp only at h1 h2 ⊢
  by_cases e1 : t = bytes "P2PMac"
  · subst e1
    obtain ⟨x, hx⟩ := Option.isSome_iff_exists.mp (h1 (by simp))
    simp [d, hx]
  rw [if_neg e1]
  by_cases e2 : t = bytes "FriendlyName"
  · subst e2
    obtain ⟨x, hx⟩ := Option.isSome_iff_exists.mp (h1 (by simp))
    simp [d, d', hx]
  rw [if_neg e2]
  by_cases e3 : t = bytes "Connected"
  · subst e3
    obtain ⟨x, hx⟩ := Option.isSome_iff_exists.mp (h2 rfl)
    simp [d, d', hx]
  rw [if_neg e3]
  by_cases e4 : t = bytes "Interface"
  · subst e4
    obtain ⟨x, hx⟩ := Option.isSome_iff_exists.mp (h1 (by simp))
    simp [d, d', hx]
  rw [if_neg e4]
  by_cases e5 : t = bytes "LocalAddress"
  · subst e5
    obtain ⟨x, hx⟩ := Option.isSome_iff_exists.mp (h1 (by simp))
    simp [d, d', hx]
  rw [if_neg e5]
  by_cases e6 : t = bytes "RemoteAddress"
  · subst e6
    obtain ⟨x, hx⟩ := Option.isSome_iff_exists.mp (h1 (by simp))
    simp [d, d', hx]
  rw [if_neg e6]
  by_cases e7 : t = bytes "WfdSubelements"
  · subst e7
    obtain ⟨x, hx⟩ := Option.isSome_iff_exists.mp (h1 (by simp))
    simp [d, d', hx]
  rw [if_neg e7]
  simp [e1, e2, e3, e4, e5, e6, e7]

/-- … of the wrong type. -/
theorem read_peer_none (u : PeerUpd) (q : List Byte × Val) (h : ¬ ((q.1 ∈ [bytes "P2PMac", bytes "FriendlyName", bytes "Interface", bytes "LocalAddress", bytes "RemoteAddress", bytes "WfdSubelements"] → q.2.str.isSome = true) ∧
    (q.1 = bytes "Connected" → q.2.bool.isSome = true))) : u.read q.1 q.2 = none := by
  obtain ⟨t, v⟩ := q
  obtain ⟨d, d'⟩ := names_peer
  simp only [List.nodup_cons, List.mem_cons, not_or, List.not_mem_nil, not_false_eq_true, true_and, and_true, List.nodup_nil] at d d'
  simp only [Classical.not_and_iff_not_or_not, Classical.not_imp, Option.isSome_iff_ne_none, ne_eq, Decidable.not_not, List.mem_cons, List.not_mem_nil, or_false] at h
  unfold PeerUpd.read
  simp only
  rcases h with ⟨h | h | h | h | h | h, hv⟩ | ⟨h, hv⟩ <;> subst h <;> simp [d, d', hv]

theorem readPeer_typed (ps : Props) (h : peerTyped ps = true) (u : PeerUpd) : readPeer ps u = some
    { mac := (strAt ps "P2PMac").or u.mac, friendly := (strAt ps "FriendlyName").or u.friendly, conn := (boolAt ps "Connected").or u.conn,
      iface := (strAt ps "Interface").or u.iface, loc := (strAt ps "LocalAddress").or u.loc, rem := (strAt ps "RemoteAddress").or u.rem,
      wfd := (strAt ps "WfdSubelements").or u.wfd } := by
  induction ps generalizing u with
  | nil => rfl
  | cons q r ih =>
    have h' := (peerTyped_cons q r).mp h
    rw [readPeer, read_peer u q h'.1.1 h'.1.2]
    simp only [Option.bind_eq_bind, Option.bind_some]
    rw [ih h'.2]
    unfold strAt boolAt
    rw [bind_last Val.str q r _ (peerTyped_str h'.2 (t := "P2PMac") (by simp)), bind_last Val.str q r _ (peerTyped_str h'.2 (t := "FriendlyName") (by simp)),
      bind_last Val.str q r _ (peerTyped_str h'.2 (t := "Interface") (by simp)), bind_last Val.str q r _ (peerTyped_str h'.2 (t := "LocalAddress") (by simp)),
      bind_last Val.str q r _ (peerTyped_str h'.2 (t := "RemoteAddress") (by simp)), bind_last Val.str q r _ (peerTyped_str h'.2 (t := "WfdSubelements") (by simp)),
      bind_last Val.bool q r _ (peerTyped_conn h'.2)]
    simp only [Option.or_assoc]

theorem readPeer_untyped (ps : Props) (h : peerTyped ps = false) (u : PeerUpd) : readPeer ps u = none := by
  induction ps generalizing u with
  | nil => simp [peerTyped] at h
  | cons q r ih =>
    rw [readPeer]
    by_cases hq : (q.1 ∈ [bytes "P2PMac", bytes "FriendlyName", bytes "Interface", bytes "LocalAddress", bytes "RemoteAddress", bytes "WfdSubelements"] → q.2.str.isSome = true) ∧
      (q.1 = bytes "Connected" → q.2.bool.isSome = true)
    · rw [read_peer u q hq.1 hq.2]
      have : peerTyped r = false := by
        cases hr : peerTyped r with
        | false => rfl
        | true => rw [(peerTyped_cons q r).mpr ⟨hq, hr⟩] at h; exact h
      simp only [Option.bind_eq_bind, Option.bind_some]
      exact ih this _
    · rw [read_peer_none u q hq]; rfl

/-- One property of a link is read. -/
theorem read_link (u : LinkUpd) (q : List Byte × Val)
    (h1 : q.1 ∈ [bytes "InterfaceName", bytes "FriendlyName", bytes "WfdSubelements"] → q.2.str.isSome = true)
    (h2 : q.1 ∈ [bytes "Managed", bytes "P2PScanning"] → q.2.bool.isSome = true) (h3 : q.1 = bytes "InterfaceIndex" → q.2.uint.isSome = true) :
    u.read q.1 q.2 = some
      { ifindex := (if q.1 = bytes "InterfaceIndex" then q.2.uint else none).getD u.ifindex
        ifname := (if q.1 = bytes "InterfaceName" then q.2.str else none).or u.ifname
        friendly := (if q.1 = bytes "FriendlyName" then q.2.str else none).or u.friendly
        managed := (if q.1 = bytes "Managed" then q.2.bool else none).or u.managed
        scanning := (if q.1 = bytes "P2PScanning" then q.2.bool else none).or u.scanning
        wfd := (if q.1 = bytes "WfdSubelements" then q.2.str else none).or u.wfd } := by
  obtain ⟨d, d'⟩ := names_link
  simp only [List.nodup_cons, List.mem_cons, not_or, List.not_mem_nil, not_false_eq_true, true_and, and_true, List.nodup_nil] at d d'
  obtain ⟨t, v⟩ := q
  unfold LinkUpd.read
  simp only at h1 h2 h3 ⊢
  by_cases e1 : t = bytes "InterfaceIndex"
  · subst e1
    obtain ⟨x, hx⟩ := Option.isSome_iff_exists.mp (h3 rfl)
    simp [d, hx]
  rw [if_neg e1]
  by_cases e2 : t = bytes "InterfaceName"
  · subst e2
    obtain ⟨x, hx⟩ := Option.isSome_iff_exists.mp (h1 (by simp))
    simp [d, d', hx]
  rw [if_neg e2]
  by_cases e3 : t = bytes "FriendlyName"
  · subst e3
    obtain ⟨x, hx⟩ := Option.isSome_iff_exists.mp (h1 (by simp))
    simp [d, d', hx]
  rw [if_neg e3]
  by_cases e4 : t = bytes "Managed"
  · subst e4
    obtain ⟨x, hx⟩ := Option.isSome_iff_exists.mp (h2 (by simp))
    simp [d, d', hx]
  rw [if_neg e4]
  by_cases e5 : t = bytes "P2PScanning"
  · subst e5
    obtain ⟨x, hx⟩ := Option.isSome_iff_exists.mp (h2 (by simp))
    simp [d, d', hx]
  rw [if_neg e5]
  by_cases e6 : t = bytes "WfdSubelements"
  · subst e6
    obtain ⟨x, hx⟩ := Option.isSome_iff_exists.mp (h1 (by simp))
    simp [d, d', hx]
  rw [if_neg e6]
  simp [e1, e2, e3, e4, e5, e6]

theorem read_link_none (u : LinkUpd) (q : List Byte × Val) (h : ¬ (((q.1 ∈ [bytes "InterfaceName", bytes "FriendlyName", bytes "WfdSubelements"] → q.2.str.isSome = true) ∧
    (q.1 ∈ [bytes "Managed", bytes "P2PScanning"] → q.2.bool.isSome = true)) ∧ (q.1 = bytes "InterfaceIndex" → q.2.uint.isSome = true))) : u.read q.1 q.2 = none := by
  obtain ⟨t, v⟩ := q
  obtain ⟨d, d'⟩ := names_link
  simp only [List.nodup_cons, List.mem_cons, not_or, List.not_mem_nil, not_false_eq_true, true_and, and_true, List.nodup_nil] at d d'
  simp only [Classical.not_and_iff_not_or_not, Classical.not_imp, Option.isSome_iff_ne_none, ne_eq, Decidable.not_not, List.mem_cons, List.not_mem_nil, or_false] at h
  unfold LinkUpd.read
  simp only
  rcases h with (⟨h | h | h, hv⟩ | ⟨h | h, hv⟩) | ⟨h, hv⟩ <;> subst h <;> simp [d, d', hv]

theorem readLink_typed (ps : Props) (h : linkTyped ps = true) (u : LinkUpd) : readLink ps u = some
    { ifindex := ((last ps "InterfaceIndex").bind (·.uint)).getD u.ifindex, ifname := (strAt ps "InterfaceName").or u.ifname,
      friendly := (strAt ps "FriendlyName").or u.friendly, managed := (boolAt ps "Managed").or u.managed, scanning := (boolAt ps "P2PScanning").or u.scanning,
      wfd := (strAt ps "WfdSubelements").or u.wfd } := by
  induction ps generalizing u with
  | nil => rfl
  | cons q r ih =>
    have h' := (linkTyped_cons q r).mp h
    rw [readLink, read_link u q h'.1.1.1 h'.1.1.2 h'.1.2]
    simp only [Option.bind_eq_bind, Option.bind_some]
    rw [ih h'.2]
    unfold strAt boolAt
    rw [bind_last Val.str q r _ (linkTyped_str h'.2 (t := "InterfaceName") (by simp)), bind_last Val.str q r _ (linkTyped_str h'.2 (t := "FriendlyName") (by simp)),
      bind_last Val.str q r _ (linkTyped_str h'.2 (t := "WfdSubelements") (by simp)), bind_last Val.bool q r _ (linkTyped_bool h'.2 (t := "Managed") (by simp)),
      bind_last Val.bool q r _ (linkTyped_bool h'.2 (t := "P2PScanning") (by simp)), bind_last Val.uint q r _ (linkTyped_idx h'.2)]
    simp only [Option.or_assoc, Option.some.injEq, LinkUpd.mk.injEq, and_true]
    cases (last r "InterfaceIndex").bind (·.uint) <;> rfl

theorem readLink_untyped (ps : Props) (h : linkTyped ps = false) (u : LinkUpd) : readLink ps u = none := by
  induction ps generalizing u with
  | nil => simp [linkTyped] at h
  | cons q r ih =>
    rw [readLink]
    by_cases hq : ((q.1 ∈ [bytes "InterfaceName", bytes "FriendlyName", bytes "WfdSubelements"] → q.2.str.isSome = true) ∧
      (q.1 ∈ [bytes "Managed", bytes "P2PScanning"] → q.2.bool.isSome = true)) ∧ (q.1 = bytes "InterfaceIndex" → q.2.uint.isSome = true)
    · rw [read_link u q hq.1.1 hq.1.2 hq.2]
      have : linkTyped r = false := by
        cases hr : linkTyped r with
        | false => rfl
        | true => rw [(linkTyped_cons q r).mpr ⟨hq, hr⟩] at h; exact h
      simp only [Option.bind_eq_bind, Option.bind_some]
      exact ih this _
    · rw [read_link_none u q hq]; rfl

/-! ### Links -/

theorem linkProps_typed (l : Link) (ps : Props) (h : linkTyped ps = true) :
    ∃ l', linkProps l ps = some l' ∧ l'.id = l.id ∧ l'.label = l.label ∧ l'.peers = l.peers ∧ l'.view = l.view.say ps := by
  unfold linkProps
  rw [readLink_typed ps h]
  refine ⟨_, rfl, rfl, rfl, rfl, ?_⟩
  unfold LinkUpd.apply Link.view LinkView.say
  simp only [Option.or_none, LinkView.mk.injEq, and_true, true_and]
  cases (last ps "InterfaceIndex").bind (·.uint) with
  | none => rfl
  | some n => cases n <;> rfl

theorem linkProps_untyped (l : Link) (ps : Props) (h : linkTyped ps = false) : linkProps l ps = none := by
  unfold linkProps
  rw [readLink_untyped ps h]; rfl

theorem linkIfs_typed (ifs : Ifaces) (l : Link) (h : (about linkIf ifs).all linkTyped = true) :
    ∃ l', linkIfs ifs l = some l' ∧ l'.id = l.id ∧ l'.label = l.label ∧ l'.peers = l.peers ∧ l'.view = (about linkIf ifs).foldl LinkView.say l.view := by
  induction ifs generalizing l with
  | nil => exact ⟨l, rfl, rfl, rfl, rfl, rfl⟩
  | cons q r ih =>
    obtain ⟨t, ps⟩ := q
    by_cases ht : t = linkIf
    · have e : about linkIf ((t, ps) :: r) = ps :: about linkIf r := by unfold about; simp [ht]
      rw [e, List.all_cons, Bool.and_eq_true] at h
      rw [linkIfs, if_neg (by simp [ht])]
      obtain ⟨l1, h1, h2, h3, h4, h5⟩ := linkProps_typed l ps h.1
      obtain ⟨l2, g1, g2, g3, g4, g5⟩ := ih l1 h.2
      refine ⟨l2, by rw [h1]; exact g1, by rw [g2, h2], by rw [g3, h3], by rw [g4, h4], ?_⟩
      rw [e, List.foldl_cons, g5, h5]
    · have e : about linkIf ((t, ps) :: r) = about linkIf r := by unfold about; simp [ht]
      rw [e] at h
      rw [linkIfs, if_pos ht, e]
      exact ih l h

theorem linkIfs_untyped (ifs : Ifaces) (l : Link) (h : (about linkIf ifs).all linkTyped = false) : linkIfs ifs l = none := by
  induction ifs generalizing l with
  | nil => simp [about] at h
  | cons q r ih =>
    obtain ⟨t, ps⟩ := q
    by_cases ht : t = linkIf
    · have e : about linkIf ((t, ps) :: r) = ps :: about linkIf r := by unfold about; simp [ht]
      rw [e, List.all_cons, Bool.and_eq_false_iff] at h
      rw [linkIfs, if_neg (by simp [ht])]
      cases hp : linkTyped ps with
      | false => rw [linkProps_untyped l ps hp]; rfl
      | true =>
        obtain ⟨l1, h1, -⟩ := linkProps_typed l ps hp
        rw [h1]
        exact ih l1 (h.resolve_left (by simp [hp]))
    · have e : about linkIf ((t, ps) :: r) = about linkIf r := by unfold about; simp [ht]
      rw [e] at h
      rw [linkIfs, if_pos ht]
      exact ih l h

/-! ### Peers -/

theorem peerProps_untyped {σ : Type} (H : Hooks σ) (p : Peer) (ps : Props) (w : W σ) (h : peerTyped ps = false) : peerProps H p ps w = some (perr, p, w) := by
  unfold peerProps
  rw [readPeer_untyped ps h]

/-- What reading properties of the right types does. -/
theorem peerProps_typed {σ : Type} {H : Hooks σ} (hq : Quiet H) (p : Peer) (ps : Props) (w : W σ) (h : peerTyped ps = true) {e : Int} {p' : Peer} {w' : W σ}
    (hr : peerProps H p ps w = some (e, p', w')) : e = 0 ∧ pshape p' = pshape p ∧ p'.view = p.view.say ps ∧ w'.next = w.next ∧ Sim w'.links (w.putPeer p').links := by
  unfold peerProps at hr
  rw [readPeer_typed ps h] at hr
  simp only [Option.or_none] at hr
  cases hc : boolAt ps "Connected" with
  | none =>
    rw [hc] at hr
    simp only [Option.some.injEq, Prod.mk.injEq] at hr
    obtain ⟨rfl, rfl, rfl⟩ := hr
    refine ⟨rfl, rfl, ?_, rfl, rfl⟩
    unfold PeerUpd.apply Peer.view PeerView.say
    simp [hc]
  | some c =>
    rw [hc] at hr
    simp only at hr
    split at hr
    · rename_i hpc
      simp only [Option.some.injEq, Prod.mk.injEq] at hr
      obtain ⟨rfl, rfl, rfl⟩ := hr
      refine ⟨rfl, rfl, ?_, rfl, rfl⟩
      unfold PeerUpd.apply Peer.view PeerView.say
      simp [hc, hpc]
    · simp only [Option.bind_eq_bind, Option.bind_eq_some_iff] at hr
      obtain ⟨w1, h1, h2⟩ := hr
      simp only [Option.some.injEq, Prod.mk.injEq] at h2
      obtain ⟨rfl, rfl, rfl⟩ := h2
      have kk : ∀ q, Keeps ((if c = true then H.connected else H.disconnected) q) := by
        intro q
        cases c with
        | true => exact (hq.keeps.1 q).2.2.1
        | false => exact (hq.keeps.1 q).2.2.2
      have := kk _ _ _ h1
      refine ⟨rfl, rfl, ?_, this.1, this.2⟩
      unfold PeerUpd.apply Peer.view PeerView.say
      simp [hc]

theorem putPeer_unlinked {σ : Type} {w : W σ} {p : Peer} (h : ∀ a ∈ w.links, ∀ q ∈ a.peers, q.id ≠ p.id) : w.putPeer p = w := by
  unfold W.putPeer
  have : (w.links.map fun l => { l with peers := l.peers.map fun q => if q.id = p.id then p else q }) = w.links := by
    conv => rhs; rw [← List.map_id w.links]
    apply List.map_congr_left
    intro a ha
    show ({ a with peers := _ } : Link) = { a with peers := a.peers }
    congr 1
    conv => rhs; rw [← List.map_id a.peers]
    apply List.map_congr_left
    intro q hq
    rw [if_neg (h a ha q hq)]
    rfl
  rw [this]

theorem Sim.unlinked {a b : List Link} (h : Sim a b) {id : Nat} (hb : ∀ l ∈ b, ∀ q ∈ l.peers, q.id ≠ id) : ∀ l ∈ a, ∀ q ∈ l.peers, q.id ≠ id := by
  intro l hl q hq
  obtain ⟨l', hl', e⟩ := h.mem hl
  exact hb l' hl' q (by rw [fg_peers e]; exact hq)

/-- The interfaces of a new peer. -/
theorem peerIfs_run {σ : Type} {H : Hooks σ} (hq : Quiet H) (ifs : Ifaces) (p : Peer) (w : W σ) (hu : ∀ a ∈ w.links, ∀ q ∈ a.peers, q.id ≠ p.id)
    {o : Option Peer} {w' : W σ} (hr : peerIfs H ifs p w = some (o, w')) : w'.next = w.next ∧ Sim w'.links w.links ∧
      ((about peerIf ifs).all peerTyped = true → ∃ p', o = some p' ∧ pshape p' = pshape p ∧ p'.view = (about peerIf ifs).foldl PeerView.say p.view) ∧
      ((about peerIf ifs).all peerTyped = false → o = none) := by
  induction ifs generalizing p w with
  | nil =>
    rw [peerIfs] at hr
    simp only [Option.some.injEq, Prod.mk.injEq] at hr
    obtain ⟨rfl, rfl⟩ := hr
    exact ⟨rfl, rfl, fun _ => ⟨p, rfl, rfl, rfl⟩, fun h => by simp [about] at h⟩
  | cons q r ih =>
    obtain ⟨t, ps⟩ := q
    by_cases ht : t = peerIf
    · have e : about peerIf ((t, ps) :: r) = ps :: about peerIf r := by unfold about; simp [ht]
      rw [peerIfs, if_neg (by simp [ht])] at hr
      simp only [Option.bind_eq_bind, Option.bind_eq_some_iff, Prod.exists] at hr
      obtain ⟨c, p1, w1, h1, h2⟩ := hr
      cases hp : peerTyped ps with
      | false =>
        rw [peerProps_untyped H p ps w hp] at h1
        simp only [Option.some.injEq, Prod.mk.injEq] at h1
        obtain ⟨rfl, rfl, rfl⟩ := h1
        rw [if_pos (by decide)] at h2
        simp only [Option.some.injEq, Prod.mk.injEq] at h2
        obtain ⟨rfl, rfl⟩ := h2
        refine ⟨rfl, rfl, ?_, fun _ => rfl⟩
        rw [e, List.all_cons, hp]
        simp
      | true =>
        obtain ⟨rfl, hs, hv, hn, hsim⟩ := peerProps_typed hq p ps w hp h1
        rw [if_neg (by decide)] at h2
        have hid : p1.id = p.id := congrArg (·.1) hs
        rw [putPeer_unlinked (by rw [hid]; exact hu)] at hsim
        obtain ⟨g1, g2, g3, g4⟩ := ih p1 w1 (by rw [hid]; exact hsim.unlinked hu) h2
        refine ⟨g1.trans hn, g2.trans hsim, ?_, ?_⟩
        · intro h
          rw [e, List.all_cons, Bool.and_eq_true] at h
          obtain ⟨p', a1, a2, a3⟩ := g3 h.2
          exact ⟨p', a1, a2.trans hs, by rw [e, List.foldl_cons, a3, hv]⟩
        · intro h
          rw [e, List.all_cons, hp, Bool.true_and] at h
          exact g4 h
    · have e : about peerIf ((t, ps) :: r) = about peerIf r := by unfold about; simp [ht]
      rw [peerIfs, if_pos ht] at hr
      rw [e]
      exact ih p w hu hr

/-! ### Messages -/

theorem add_step {σ : Type} {H : Hooks σ} (hq : Quiet H) {w w' : W σ} {k : Known} (h : Rel w k) (path : List Byte) (ifs : Ifaces) {e : Int} {rd : Bool}
    (hr : parseObject H path (some ifs) w = some (e, rd, w')) : Rel w' (k.add path ifs).1 ∧ ((k.add path ifs).2 = true ↔ 0 ≤ e ∧ rd = true) := by
  unfold parseObject at hr
  unfold Known.add
  cases hl : labelOf Wifid.linkPre path with
  | some label =>
    rw [hl] at hr
    simp only at hr ⊢
    cases hf : w.findLink label with
    | some l =>
      rw [hf] at hr
      simp only [Option.some.injEq, Prod.mk.injEq] at hr
      obtain ⟨rfl, rfl, rfl⟩ := hr
      obtain ⟨hn, hm, hk⟩ := (findLink_iff h.good _ _).mp hf
      have : (k.link (key label)).isSome = true := by rw [← h.findLink hn, hf]; rfl
      rw [if_pos ⟨hn, this⟩]
      exact ⟨h, by simp⟩
    | none =>
      rw [hf] at hr
      simp only [Option.bind_eq_bind, Option.bind_eq_some_iff, Prod.exists] at hr
      obtain ⟨e1, w1, h1, h2⟩ := hr
      simp only [Option.some.injEq, Prod.mk.injEq] at h2
      obtain ⟨rfl, rfl, rfl⟩ := h2
      have hk : label ≠ [] → k.link (key label) = none := by intro hn; rw [← h.findLink hn, hf]; rfl
      rw [if_neg (by rintro ⟨a, b⟩; rw [hk a] at b; cases b)]
      unfold parseLink at h1
      cases ht : (about linkIf ifs).all linkTyped with
      | false =>
        rw [linkIfs_untyped ifs _ ht] at h1
        simp only [Option.some.injEq, Prod.mk.injEq] at h1
        obtain ⟨rfl, rfl⟩ := h1
        rw [if_pos (by simp)]
        exact ⟨h.bump, by simp [perr]⟩
      | true =>
        obtain ⟨l, g1, g2, g3, g4, g5⟩ := linkIfs_typed ifs { id := w.next, label := label } ht
        rw [g1] at h1
        simp only [Option.bind_eq_bind, Option.bind_eq_some_iff] at h1
        obtain ⟨w2, h2, h3⟩ := h1
        simp only [Option.some.injEq, Prod.mk.injEq] at h3
        obtain ⟨rfl, rfl⟩ := h3
        rw [if_neg (by simp)]
        have hA := (h.addLink (l := l) g2 g4 (by rw [g3]; exact hk)).keeps (hq.keeps.2.1 l).1 h2
        rw [g3, g5] at hA
        refine ⟨?_, by split <;> simp⟩
        split
        · rename_i h0
          simp only [h0, if_true] at hA
          exact hA
        · rename_i h0
          simp only [h0, if_false] at hA
          exact hA
  | none =>
    rw [hl] at hr
    simp only at hr ⊢
    cases hp : labelOf Wifid.peerPre path with
    | none =>
      rw [hp] at hr
      simp only [Option.some.injEq, Prod.mk.injEq] at hr
      obtain ⟨rfl, rfl, rfl⟩ := hr
      exact ⟨h, by simp⟩
    | some label =>
      rw [hp] at hr
      simp only at hr ⊢
      cases hf : w.findPeer label with
      | some p =>
        rw [hf] at hr
        simp only [Option.some.injEq, Prod.mk.injEq] at hr
        obtain ⟨rfl, rfl, rfl⟩ := hr
        have : (k.peer (key label)).isSome = true := by rw [← h.findPeer, hf]; rfl
        rw [if_pos this]
        exact ⟨h, by simp⟩
      | none =>
        rw [hf] at hr
        simp only at hr
        have hk : k.peer (key label) = none := by rw [← h.findPeer, hf]; rfl
        rw [hk, if_neg (by simp)]
        unfold parsePeer W.linkByPeer at hr
        cases hat : afterAt label with
        | none =>
          rw [hat] at hr
          simp only [Option.bind_none, ite_self, Option.some.injEq, Prod.mk.injEq] at hr
          obtain ⟨rfl, rfl, rfl⟩ := hr
          exact ⟨h, by simp⟩
        | some r =>
          have hln : label ≠ [] := by rintro rfl; simp [afterAt] at hat
          rw [hat, if_neg hln] at hr
          simp only [Option.bind_some] at hr ⊢
          cases hfl : w.findLink r with
          | none =>
            rw [hfl] at hr
            simp only [Option.some.injEq, Prod.mk.injEq] at hr
            obtain ⟨rfl, rfl, rfl⟩ := hr
            rw [if_pos]
            · exact ⟨h, by simp⟩
            · by_cases hrn : r = []
              · exact Or.inl hrn
              · right; rw [← h.findLink hrn, hfl]; rfl
          | some l =>
            obtain ⟨hrn, hm, hkl⟩ := (findLink_iff h.good _ _).mp hfl
            rw [hfl] at hr
            simp only [Option.bind_eq_bind, Option.bind_eq_some_iff, Prod.exists] at hr
            obtain ⟨o, w1, h1, h2⟩ := hr
            have hk2 : k.link (key r) ≠ none := by rw [← h.findLink hrn, hfl]; simp
            rw [if_neg (by simp [hrn, hk2])]
            have hu : ∀ a ∈ w.links, ∀ q ∈ a.peers, q.id ≠ w.next := by
              intro a ha q hq'
              have := (h.good.own _ (List.mem_map_of_mem ha) _ (List.mem_map_of_mem hq')).2.1
              change q.id < w.next at this
              omega
            obtain ⟨g1, g2, g3, g4⟩ := peerIfs_run hq ifs { id := w.next, l := l.id, label := label } { w with next := w.next + 1 } hu h1
            have hR1 : Rel w1 k := h.bump.sim g2 g1
            cases ht : (about peerIf ifs).all peerTyped with
            | false =>
              rw [g4 ht] at h2
              simp only [Option.some.injEq, Prod.mk.injEq] at h2
              obtain ⟨rfl, rfl, rfl⟩ := h2
              rw [if_pos (by simp)]
              exact ⟨hR1, by simp [perr]⟩
            | true =>
              obtain ⟨p, rfl, hs, hv⟩ := g3 ht
              simp only [Option.bind_eq_some_iff, Option.some.injEq, Prod.mk.injEq] at h2
              obtain ⟨w2, h2, rfl, rfl, rfl⟩ := h2
              have hid : p.id = w.next := congrArg (·.1) hs
              have hpl : p.l = l.id := congrArg (·.2.1) hs
              have hlb : p.label = label := congrArg (·.2.2) hs
              obtain ⟨l1, hm1, e1⟩ := g2.symm.mem hm
              rw [if_neg (by simp)]
              have hA := hR1.addPeer (p := p) hm1 (by rw [hpl, fg_id e1]) (by rw [hid, g1]; exact Nat.lt_succ_self _) (by rw [hid]; exact g2.unlinked hu)
                (r := r) (by rw [hlb]; exact hat) hrn (by rw [fg_label e1, hkl]) (by rw [hlb]; exact hk)
              have hB := hA.keeps (hq.keeps.1 p).1 h2
              rw [hlb, hv] at hB
              exact ⟨hB, by simp⟩

theorem key_peer_eq {σ : Type} {w : W σ} {k : Known} (h : Rel w k) {label : List Byte} (hk : k.peer (key label) = none) : setAt k.peer (key label) none = k.peer := by
  funext x
  unfold setAt
  split
  · rename_i e; rw [e, hk]
  · rfl

theorem drop_step {σ : Type} {H : Hooks σ} (hq : Quiet H) {w w' : W σ} {k : Known} (h : Rel w k) (path : List Byte) {e : Int} {rd : Bool}
    (hr : parseObject H path none w = some (e, rd, w')) : Rel w' (k.drop path) := by
  unfold parseObject at hr
  unfold Known.drop
  cases hl : labelOf Wifid.linkPre path with
  | some label =>
    rw [hl] at hr
    simp only at hr ⊢
    cases hf : w.findLink label with
    | none =>
      rw [hf] at hr
      simp only [Option.some.injEq, Prod.mk.injEq] at hr
      obtain ⟨rfl, rfl, rfl⟩ := hr
      split
      · exact h
      · rename_i hn
        have hk : k.link (key label) = none := by rw [← h.findLink hn, hf]; rfl
        refine ⟨h.good, fun lb hn' v => ?_, fun lb v => ?_⟩
        · show setAt k.link (key label) none (key lb) = some v ↔ _
          rw [← h.link lb hn' v]
          unfold setAt
          split
          · rename_i e; rw [e, hk]
          · rfl
        · show (if afterAt (key lb) = some (key label) then none else k.peer (key lb)) = some v ↔ _
          rw [← h.peer lb v]
          split
          · rename_i e
            simp only [reduceCtorEq, false_iff]
            intro e2
            obtain ⟨l, hm, p, hp, e3, -⟩ := (h.peer lb v).mp e2
            obtain ⟨-, -, r, hr, hrn, hrk⟩ := h.good.own _ (List.mem_map_of_mem hm) _ (List.mem_map_of_mem hp)
            change afterAt p.label = some r at hr
            change key r = key l.label at hrk
            rw [← e3, afterAt_key, hr] at e
            injection e with e
            change key r = key label at e
            have := (h.link label hn l.view).mpr ⟨l, hm, by rw [← hrk, e], rfl⟩
            rw [hk] at this
            cases this
          · rfl
    | some l =>
      rw [hf] at hr
      simp only [Option.bind_eq_bind, Option.bind_eq_some_iff, Option.some.injEq, Prod.mk.injEq] at hr
      obtain ⟨w1, h1, rfl, rfl, rfl⟩ := hr
      obtain ⟨hn, hm, hk⟩ := (findLink_iff h.good _ _).mp hf
      rw [if_neg hn]
      have hln : l.label ≠ [] := by intro x; rw [x] at hk; exact hn (key_nil.mp hk.symm)
      obtain ⟨e1, e2⟩ := linkFree_eq hq h.good hm h1
      have := (h.dropLink hm hln).sim e2 e1
      rw [hk] at this
      exact this
  | none =>
    rw [hl] at hr
    simp only at hr ⊢
    cases hp : labelOf Wifid.peerPre path with
    | none =>
      rw [hp] at hr
      simp only [Option.some.injEq, Prod.mk.injEq] at hr
      obtain ⟨rfl, rfl, rfl⟩ := hr
      exact h
    | some label =>
      rw [hp] at hr
      simp only at hr ⊢
      cases hf : w.findPeer label with
      | none =>
        rw [hf] at hr
        simp only [Option.some.injEq, Prod.mk.injEq] at hr
        obtain ⟨rfl, rfl, rfl⟩ := hr
        have hk : k.peer (key label) = none := by rw [← h.findPeer, hf]; rfl
        rw [key_peer_eq h hk]
        exact h
      | some p =>
        rw [hf] at hr
        simp only [Option.bind_eq_bind, Option.bind_eq_some_iff, Option.some.injEq, Prod.mk.injEq] at hr
        obtain ⟨w1, h1, rfl, rfl, rfl⟩ := hr
        obtain ⟨l, hm, hpm, hk⟩ := (findPeer_iff h.good _ _).mp hf
        obtain ⟨e1, e2⟩ := peerFree_eq hq h1
        have := (h.delPeer hm hpm).sim e2 e1
        rw [hk] at this
        exact this

theorem setAt_same {α : Type} (f : List Byte → Option α) (x : List Byte) : setAt f x (f x) = f := by
  funext y
  unfold setAt
  split
  · rename_i e; rw [e]
  · rfl

theorem change_step {σ : Type} {H : Hooks σ} (hq : Quiet H) {w w' : W σ} {k : Known} (h : Rel w k) (path iface : List Byte) (ps : Props) {e : Int}
    (hr : receive H w (.changed path iface ps) = some (e, w')) : Rel w' (k.change path iface ps) := by
  rw [receive] at hr
  unfold Known.change
  cases hl : labelOf Wifid.linkPre path with
  | some label =>
    rw [hl] at hr
    simp only at hr ⊢
    cases hf : w.findLink label with
    | none =>
      rw [hf] at hr
      simp only [Option.some.injEq, Prod.mk.injEq] at hr
      obtain ⟨rfl, rfl⟩ := hr
      split
      · rename_i hc
        have hk : k.link (key label) = none := by rw [← h.findLink hc.1, hf]; rfl
        have : setAt k.link (key label) ((k.link (key label)).map (·.say ps)) = k.link := by
          conv => rhs; rw [← setAt_same k.link (key label)]
          rw [hk]; rfl
        rw [this]
        exact h
      · exact h
    | some l =>
      rw [hf] at hr
      simp only at hr
      obtain ⟨hn, hm, hk⟩ := (findLink_iff h.good _ _).mp hf
      by_cases hi : iface = linkIf
      · rw [if_neg (by simp [hi])] at hr
        cases ht : linkTyped ps with
        | false =>
          rw [linkProps_untyped l ps ht] at hr
          simp only [Option.some.injEq, Prod.mk.injEq] at hr
          obtain ⟨rfl, rfl⟩ := hr
          rw [if_neg (by simp)]
          exact h
        | true =>
          obtain ⟨l', g1, g2, g3, g4, g5⟩ := linkProps_typed l ps ht
          rw [g1] at hr
          simp only [Option.some.injEq, Prod.mk.injEq] at hr
          obtain ⟨rfl, rfl⟩ := hr
          rw [if_pos ⟨hn, hi, rfl⟩]
          have hln : l.label ≠ [] := by intro x; rw [x] at hk; exact hn (key_nil.mp hk.symm)
          have := h.putLink hm hln g2 g3 g4
          have e1 : (k.link (key label)).map (·.say ps) = some l'.view := by rw [← h.findLink hn, hf]; simp [g5]
          rw [e1, ← hk]
          exact this
      · rw [if_pos hi] at hr
        simp only [Option.some.injEq, Prod.mk.injEq] at hr
        obtain ⟨rfl, rfl⟩ := hr
        rw [if_neg (by simp [hi])]
        exact h
  | none =>
    rw [hl] at hr
    simp only at hr ⊢
    unfold W.peerAt at hr
    cases hp : labelOf Wifid.peerPre path with
    | none =>
      rw [hp] at hr
      simp only [Option.bind_none, Option.some.injEq, Prod.mk.injEq] at hr
      obtain ⟨rfl, rfl⟩ := hr
      exact h
    | some label =>
      rw [hp] at hr
      simp only [Option.bind_some] at hr ⊢
      cases hf : w.findPeer label with
      | none =>
        rw [hf] at hr
        simp only [Option.some.injEq, Prod.mk.injEq] at hr
        obtain ⟨rfl, rfl⟩ := hr
        have hk : k.peer (key label) = none := by rw [← h.findPeer, hf]; rfl
        rw [hk]
        split
        · have := key_peer_eq h hk
          simp only [Option.map_none]
          rw [this]; exact h
        · exact h
      | some p =>
        rw [hf] at hr
        simp only at hr
        obtain ⟨l, hm, hpm, hk⟩ := (findPeer_iff h.good _ _).mp hf
        by_cases hi : iface = peerIf
        · rw [if_neg (by simp [hi])] at hr
          simp only [Option.bind_eq_bind, Option.bind_eq_some_iff, Prod.exists, Option.some.injEq, Prod.mk.injEq] at hr
          obtain ⟨c, p', w1, h1, rfl, rfl⟩ := hr
          cases ht : peerTyped ps with
          | false =>
            rw [peerProps_untyped H p ps w ht] at h1
            simp only [Option.some.injEq, Prod.mk.injEq] at h1
            obtain ⟨rfl, rfl, rfl⟩ := h1
            rw [if_neg (by simp)]
            exact h
          | true =>
            obtain ⟨-, hs, hv, g1, g2⟩ := peerProps_typed hq p ps w ht h1
            rw [if_pos ⟨hi, rfl⟩]
            have := (h.putPeer hm hpm hs).sim g2 g1
            have e1 : (k.peer (key label)).map (·.say ps) = some p'.view := by rw [← h.findPeer, hf]; simp [hv]
            rw [e1, ← hk]
            exact this
        · rw [if_pos hi] at hr
          simp only [Option.some.injEq, Prod.mk.injEq] at hr
          obtain ⟨rfl, rfl⟩ := hr
          rw [if_neg (by simp [hi])]
          exact h

theorem fetch_step {σ : Type} {H : Hooks σ} (hq : Quiet H) (l : List (List Byte × Ifaces)) {w w' : W σ} {k : Known} (h : Rel w k) {e : Int}
    (hr : fetch H l w = some (e, w')) : Rel w' (k.addAll l) := by
  induction l generalizing w k with
  | nil =>
    rw [fetch] at hr
    simp only [Option.some.injEq, Prod.mk.injEq] at hr
    obtain ⟨rfl, rfl⟩ := hr
    exact h
  | cons q r ih =>
    obtain ⟨path, ifs⟩ := q
    rw [fetch] at hr
    simp only [Option.bind_eq_bind, Option.bind_eq_some_iff, Prod.exists] at hr
    obtain ⟨c, rd, w1, h1, h2⟩ := hr
    obtain ⟨hR, hiff⟩ := add_step hq h path ifs h1
    rw [Known.addAll]
    split at h2
    · rename_i hc
      rw [if_neg (fun x => by have := (hiff.mp x).1; omega)]
      simp only [Option.some.injEq, Prod.mk.injEq] at h2
      obtain ⟨rfl, rfl⟩ := h2
      exact hR
    · rename_i hc
      split at h2
      · rename_i hrd
        rw [if_neg (fun x => by have := (hiff.mp x).2; simp [this] at hrd)]
        simp only [Option.some.injEq, Prod.mk.injEq] at h2
        obtain ⟨rfl, rfl⟩ := h2
        exact hR
      · rename_i hrd
        rw [if_pos (hiff.mpr ⟨by omega, by simpa using hrd⟩)]
        exact ih hR h2

/-- The listener knows the object. -/
def knows (k : Known) (path : List Byte) : Prop :=
  match labelOf Wifid.linkPre path with
  | some label => label ≠ [] ∧ (k.link (key label)).isSome = true
  | none =>
    match labelOf Wifid.peerPre path with
    | none => True
    | some label => (k.peer (key label)).isSome = true

theorem add_keeps (k : Known) (path : List Byte) (ifs : Ifaces) : (∀ x, (k.link x).isSome = true → ((k.add path ifs).1.link x).isSome = true) ∧
    ∀ x, (k.peer x).isSome = true → ((k.add path ifs).1.peer x).isSome = true := by
  unfold Known.add
  split
  · split
    · exact ⟨fun _ h => h, fun _ h => h⟩
    · split
      · exact ⟨fun _ h => h, fun _ h => h⟩
      · split
        · exact ⟨fun _ h => h, fun _ h => h⟩
        · refine ⟨fun x h => ?_, fun _ h => h⟩
          show (setAt _ _ _ x).isSome = true
          unfold setAt
          split
          · rfl
          · exact h
  · split
    · exact ⟨fun _ h => h, fun _ h => h⟩
    · split
      · exact ⟨fun _ h => h, fun _ h => h⟩
      · split
        · exact ⟨fun _ h => h, fun _ h => h⟩
        · split
          · exact ⟨fun _ h => h, fun _ h => h⟩
          · split
            · exact ⟨fun _ h => h, fun _ h => h⟩
            · refine ⟨fun _ h => h, fun x h => ?_⟩
              show (setAt _ _ _ x).isSome = true
              unfold setAt
              split
              · rfl
              · exact h

theorem add_knows {k : Known} {path p' : List Byte} (ifs : Ifaces) (h : knows k p') : knows (k.add path ifs).1 p' := by
  unfold knows at h ⊢
  split
  · rename_i label hl
    rw [hl] at h
    exact ⟨h.1, (add_keeps k path ifs).1 _ h.2⟩
  · rename_i hl
    rw [hl] at h
    split
    · trivial
    · rename_i label hp
      rw [hp] at h
      exact (add_keeps k path ifs).2 _ h

theorem addAll_knows (l : List (List Byte × Ifaces)) {k : Known} {p' : List Byte} (h : knows k p') : knows (k.addAll l) p' := by
  induction l generalizing k with
  | nil => exact h
  | cons q r ih =>
    rw [Known.addAll]
    split
    · exact ih (add_knows q.2 h)
    · exact add_knows q.2 h

/-- An object that can be understood and placed becomes known. -/
theorem add_learns {k : Known} {path : List Byte} {ifs : Ifaces} {before : List (List Byte × Ifaces)} (hb : ∀ q ∈ before, knows k q.1)
    (h : match labelOf Wifid.linkPre path with
      | some label => label ≠ [] ∧ (about linkIf ifs).all linkTyped = true
      | none =>
        match labelOf Wifid.peerPre path with
        | none => True
        | some label => (about peerIf ifs).all peerTyped = true ∧
          ∃ r, afterAt label = some r ∧ r ≠ [] ∧ ∃ q ∈ before, ∃ lab, labelOf Wifid.linkPre q.1 = some lab ∧ key lab = key r) :
    (k.add path ifs).2 = true ∧ knows (k.add path ifs).1 path := by
  unfold Known.add knows
  cases hl : labelOf Wifid.linkPre path with
  | some label =>
    rw [hl] at h
    simp only at h ⊢
    split
    · rename_i hc; exact ⟨rfl, hc⟩
    · rw [if_neg (by simp [h.2]), if_neg h.1]
      refine ⟨rfl, h.1, ?_⟩
      show (setAt _ _ _ _).isSome = true
      unfold setAt
      rw [if_pos rfl]; rfl
  | none =>
    rw [hl] at h
    simp only at h ⊢
    cases hp : labelOf Wifid.peerPre path with
    | none => exact ⟨rfl, trivial⟩
    | some label =>
      rw [hp] at h
      simp only at h ⊢
      obtain ⟨ht, r, hr, hrn, q, hq, lab, hlab, hk⟩ := h
      split
      · rename_i hc; exact ⟨rfl, hc⟩
      · have hkn := hb q hq
        unfold knows at hkn
        rw [hlab] at hkn
        rw [hr]
        simp only
        have : ¬ (r = [] ∨ k.link (key r) = none) := by
          rintro (h | h)
          · exact hrn h
          · have := hkn.2
            rw [hk, h] at this
            cases this
        rw [if_neg this]
        refine ⟨rfl, ?_⟩
        show (setAt _ _ _ _).isSome = true
        unfold setAt
        rw [if_pos rfl]; rfl

theorem fetch_known {σ : Type} {H : Hooks σ} (hq : Quiet H) (l before : List (List Byte × Ifaces)) {w w' : W σ} {k : Known} (h : Rel w k)
    (hb : ∀ q ∈ before, knows k q.1)
    (ho : ∀ b path ifs after, l = b ++ (path, ifs) :: after →
      match labelOf Wifid.linkPre path with
      | some label => label ≠ [] ∧ (about linkIf ifs).all linkTyped = true
      | none =>
        match labelOf Wifid.peerPre path with
        | none => True
        | some label => (about peerIf ifs).all peerTyped = true ∧
          ∃ r, afterAt label = some r ∧ r ≠ [] ∧ ∃ q ∈ before ++ b, ∃ lab, labelOf Wifid.linkPre q.1 = some lab ∧ key lab = key r)
    {e : Int} (hr : fetch H l w = some (e, w')) : e = 0 ∧ ∀ q ∈ l, knows (k.addAll l) q.1 := by
  induction l generalizing w k before with
  | nil =>
    rw [fetch] at hr
    simp only [Option.some.injEq, Prod.mk.injEq] at hr
    exact ⟨hr.1.symm, by simp⟩
  | cons q r ih =>
    obtain ⟨path, ifs⟩ := q
    rw [fetch] at hr
    simp only [Option.bind_eq_bind, Option.bind_eq_some_iff, Prod.exists] at hr
    obtain ⟨c, rd, w1, h1, h2⟩ := hr
    obtain ⟨hR, hiff⟩ := add_step hq h path ifs h1
    have hl := ho [] path ifs r rfl
    rw [List.append_nil] at hl
    obtain ⟨ha, hk⟩ := add_learns hb hl
    obtain ⟨hc, hrd⟩ := hiff.mp ha
    rw [if_neg (by omega), if_neg (by simp [hrd])] at h2
    obtain ⟨e1, e2⟩ := ih (before ++ [(path, ifs)]) hR (by
      intro q hq
      rcases List.mem_append.mp hq with hq | hq
      · exact add_knows ifs (hb q hq)
      · simp at hq; rw [hq]; exact hk) (by
      intro b path' ifs' after e
      have := ho ((path, ifs) :: b) path' ifs' after (by rw [e]; rfl)
      rw [List.append_assoc]
      exact this) h2
    refine ⟨e1, fun q hq => ?_⟩
    rw [Known.addAll, if_pos ha]
    rcases List.mem_cons.mp hq with rfl | hq
    · exact addAll_knows r hk
    · exact e2 q hq

theorem receive_step {σ : Type} {H : Hooks σ} (hq : Quiet H) {w w' : W σ} {k : Known} (h : Rel w k) (m : Msg) {e : Int}
    (hr : receive H w m = some (e, w')) : Rel w' (k.hear m) := by
  cases m with
  | added path ifs =>
    rw [receive] at hr
    simp only [Option.bind_eq_bind, Option.bind_eq_some_iff, Prod.exists, Option.some.injEq, Prod.mk.injEq] at hr
    obtain ⟨c, rd, w1, h1, rfl, rfl⟩ := hr
    exact (add_step hq h path ifs h1).1
  | removed path =>
    rw [receive] at hr
    simp only [Option.bind_eq_bind, Option.bind_eq_some_iff, Prod.exists, Option.some.injEq, Prod.mk.injEq] at hr
    obtain ⟨c, rd, w1, h1, rfl, rfl⟩ := hr
    exact drop_step hq h path h1
  | changed path iface ps => exact change_step hq h path iface ps hr
  | prov path a b =>
    rw [receive] at hr
    split at hr
    · simp only [Option.some.injEq, Prod.mk.injEq] at hr
      obtain ⟨rfl, rfl⟩ := hr; exact h
    · simp only [Option.bind_eq_bind, Option.bind_eq_some_iff, Option.some.injEq, Prod.mk.injEq] at hr
      obtain ⟨w1, h1, rfl, rfl⟩ := hr
      exact h.keeps (hq.keeps.2.2.1 _ a b).1 h1
  | goNeg path a b =>
    rw [receive] at hr
    split at hr
    · simp only [Option.some.injEq, Prod.mk.injEq] at hr
      obtain ⟨rfl, rfl⟩ := hr; exact h
    · simp only [Option.bind_eq_bind, Option.bind_eq_some_iff, Option.some.injEq, Prod.mk.injEq] at hr
      obtain ⟨w1, h1, rfl, rfl⟩ := hr
      exact h.keeps (hq.keeps.2.2.1 _ a b).2 h1
  | failure path a =>
    rw [receive] at hr
    split at hr
    · simp only [Option.some.injEq, Prod.mk.injEq] at hr
      obtain ⟨rfl, rfl⟩ := hr; exact h
    · simp only [Option.bind_eq_bind, Option.bind_eq_some_iff, Option.some.injEq, Prod.mk.injEq] at hr
      obtain ⟨w1, h1, rfl, rfl⟩ := hr
      exact h.keeps (hq.keeps.2.2.2 _ a) h1
  | objects l => exact fetch_step hq l h hr

theorem run_rel {σ : Type} {H : Hooks σ} (hq : Quiet H) (ms : List Msg) {w w' : W σ} {k : Known} (h : Rel w k)
    (hr : runMsgs H w ms = some w') : Rel w' (ms.foldl Known.hear k) := by
  induction ms generalizing w k with
  | nil => rw [runMsgs] at hr; injection hr with hr; subst hr; exact h
  | cons m ms ih =>
    rw [runMsgs] at hr
    simp only [Option.bind_eq_bind, Option.bind_eq_some_iff, Prod.exists] at hr
    obtain ⟨c, w1, h1, h2⟩ := hr
    exact ih (receive_step hq h m h1) h2

theorem rel_start {σ : Type} (a : σ) (n : Nat) : Rel ({ links := [], next := n, app := a } : W σ) Known.nothing := by
  refine ⟨⟨by simp, by simp, by simp, by simp, by simp, by simp⟩, ?_, ?_⟩
  · intro label _ v
    simp [Known.nothing]
  · intro label v
    simp [Known.nothing]

end Verif.Mirror
