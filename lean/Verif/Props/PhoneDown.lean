import Verif.Proof.PhoneDown
import Verif.Props.Phone
/-!
# A session ends when the connection does: theorems

C147, C148.
-/
namespace Verif.Phone
open Verif.C Spec

/-- **C147 (in part: the device owns the group).** wpa_supplicant reports that the group is gone: it is told to remove it, the player is killed, the connection closed, and both programs are
ready for the device again. Missing: other devices in the group. -/
theorem group_removed_ends_partial (jk : Nat → Byte) (env : Event.Env) (E : Sinkctl.Env) {W : World} {p : Nat} {y : P2p.Peer} {q : Mirror.Peer} {g : Nat} {x : P2p.Grp} (h : On W p y q g x)
    (ht : ∃ l ∈ W.w.links, l.id = q.l) (hn : Ask.Spec.Unquoted x.ifname ∧ x.ifname.length ≤ 1000000000) (ho : x.owner = some p) (hs : Sole W.s g p)
    {d : List Byte} {ps : List Event.Spec.Piece} (hl : Line d (bytes "P2P-GROUP-REMOVED") ps) (ha : Event.Spec.arg 0 ps = some x.ifname) :
    ∃ W' d', step jk env E W (.line d) = some W' ∧ W'.sent = W.sent ++ [d'] ∧ Ask.Spec.hear d' = .order (bytes "P2P_GROUP_REMOVE") [x.ifname] ∧ Ended W W' p y q ∧
      W'.s.gheap g = none ∧ (∀ k, k ≠ g → W'.s.gheap k = W.s.gheap k) ∧ W'.s.next = W.s.next ∧ Kept W.s W'.s p := by
  obtain ⟨zx, ops, hre⟩ := h.reach
  have hI := P2p.reached hre
  have hst := removed_step hI h.bus h.grp (P2p.found_by_interface hre h.grp) ho hs
  have hL : Left W.s (W.s.freed g x) p y g x true := left_freed hI.g h.bus h.peer h.isin hs h.shown h.on
  have hr : ∃ zx ops, (P2p.start zx).run ops = some (W.s.freed g x) :=
    ⟨zx, ops ++ [.groupRemoved x.ifname], by rw [P2p.run_append, hre]; simp only [Option.bind_some, P2p.S.run, hst]⟩
  obtain ⟨W', ds, e, e1, e2, e3, e4⟩ := left_exchange jk E h ht hn hr hL
  obtain ⟨d', rfl, hd⟩ := e3
  refine ⟨W', d', ?_, e2, hd, e4, ?_, ?_, ?_, by rw [e1]; exact hL.kept⟩
  · rw [line_step jk env E W hl ⟨by decide, by decide +kernel⟩ (fun x => .removed ps _ ha) hst]
    exact e
  · rw [e1]; exact hL.grp.mpr rfl
  · rw [e1]; exact hL.others
  · rw [e1]; exact hL.next

/-- **C147 (in part: the device owns the group).** The DHCP client of the group dies or closes its side of the socket: the same. Missing: other devices in the group. -/
theorem helper_gone_ends_partial (jk : Nat → Byte) (env : Event.Env) (E : Sinkctl.Env) {W : World} {p : Nat} {y : P2p.Peer} {q : Mirror.Peer} {g : Nat} {x : P2p.Grp} (h : On W p y q g x)
    (ht : ∃ l ∈ W.w.links, l.id = q.l) (hn : Ask.Spec.Unquoted x.ifname ∧ x.ifname.length ≤ 1000000000) (ho : x.owner = some p) (hs : Sole W.s g p) (died : Bool) :
    ∃ W' d', step jk env E W (.helperGone g died) = some W' ∧ W'.sent = W.sent ++ [d'] ∧ Ask.Spec.hear d' = .order (bytes "P2P_GROUP_REMOVE") [x.ifname] ∧ Ended W W' p y q ∧
      W'.s.gheap g = none ∧ (∀ k, k ≠ g → W'.s.gheap k = W.s.gheap k) ∧ W'.s.next = W.s.next ∧ Kept W.s W'.s p := by
  obtain ⟨zx, ops, hre⟩ := h.reach
  have hI := P2p.reached hre
  have hst := (gone_step hI h.grp died).trans (free_owned hI h.grp ho hs)
  have hL : Left W.s (W.s.freed g x) p y g x true := left_freed hI.g h.bus h.peer h.isin hs h.shown h.on
  have hr : ∃ zx ops, (P2p.start zx).run ops = some (W.s.freed g x) :=
    ⟨zx, ops ++ [if died then .helperDied g else .comm g .hup true true], by rw [P2p.run_append, hre]; simp only [Option.bind_some, P2p.S.run, hst]⟩
  obtain ⟨W', ds, e, e1, e2, e3, e4⟩ := left_exchange jk E h ht hn hr hL
  obtain ⟨d', rfl, hd⟩ := e3
  refine ⟨W', d', ?_, e2, hd, e4, ?_, ?_, ?_, by rw [e1]; exact hL.kept⟩
  · simp only [step, hst, Option.bind_some]
    exact e
  · rw [e1]; exact hL.grp.mpr rfl
  · rw [e1]; exact hL.others
  · rw [e1]; exact hL.next

/-- **C147 (this device owns the group).** The device leaves: the player is killed, the connection closed, and both programs are ready for the device again. The group is removed exactly
if no other device is in it. -/
theorem leaving_ends (jk : Nat → Byte) (env : Event.Env) (E : Sinkctl.Env) {W : World} {p : Nat} {y : P2p.Peer} {q : Mirror.Peer} {g : Nat} {x : P2p.Grp} (h : On W p y q g x)
    (ht : ∃ l ∈ W.w.links, l.id = q.l) (hn : Ask.Spec.Unquoted x.ifname ∧ x.ifname.length ≤ 1000000000) (ho : x.owner = none)
    {d : List Byte} {ps : List Event.Spec.Piece} (hl : Line d (bytes "AP-STA-DISCONNECTED") ps) (ha : Event.Spec.get (bytes "p2p_dev_addr") ps = some y.mac) :
    ∃ W' ds, step jk env E W (.line d) = some W' ∧ W'.sent = W.sent ++ ds ∧ Ended W W' p y q ∧
      (Sole W.s g p → W'.s.gheap g = none ∧ ∃ d', ds = [d'] ∧ Ask.Spec.hear d' = .order (bytes "P2P_GROUP_REMOVE") [x.ifname]) ∧
      (¬ Sole W.s g p → W'.s.gheap g ≠ none ∧ ds = []) ∧ (∀ k, k ≠ g → W'.s.gheap k = W.s.gheap k) ∧ W'.s.next = W.s.next ∧ Kept W.s W'.s p := by
  obtain ⟨zx, ops, hre⟩ := h.reach
  have hI := P2p.reached hre
  obtain ⟨gone, hg⟩ : ∃ gone : Bool, gone = true ↔ Sole W.s g p := by
    rcases Classical.em (Sole W.s g p) with k | k
    · exact ⟨true, by simp [k]⟩
    · exact ⟨false, by simp [k]⟩
  obtain ⟨s1, hst, hL⟩ := sta_step hI h.bus h.grp ho h.peer h.isin h.shown h.on gone hg
  have hr : ∃ zx ops, (P2p.start zx).run ops = some s1 :=
    ⟨zx, ops ++ [.staDisconnected y.mac], by rw [P2p.run_append, hre]; simp only [Option.bind_some, P2p.S.run, hst]⟩
  obtain ⟨W', ds, e, e1, e2, e3, e4⟩ := left_exchange jk E h ht hn hr hL
  refine ⟨W', ds, ?_, e2, e4, ?_, ?_, by rw [e1]; exact hL.others, by rw [e1]; exact hL.next, by rw [e1]; exact hL.kept⟩
  · rw [line_step jk env E W hl ⟨by decide, by decide +kernel⟩ (fun x => .left ps _ ha) hst]
    exact e
  · intro k
    have hgt := hg.mpr k
    rw [if_pos hgt] at e3
    exact ⟨by rw [e1]; exact hL.grp.mpr hgt, e3⟩
  · intro k
    have hgf : gone ≠ true := fun x => k (hg.mp x)
    rw [if_neg hgf] at e3
    exact ⟨by rw [e1]; exact fun x => hgf (hL.grp.mp x), e3⟩

theorem free_crashes {s : P2p.S} (hI : P2p.Inv s) {g p : Nat} {y : P2p.Peer} {x : P2p.Grp} (hp : s.pheap p = some y) (hg : y.g = some g) (hx : s.gheap g = some x) (ho : x.owner = none) :
    P2p.S.groupFree P2p.depth s g = none := by
  rcases hI.g.groupFree hx with ⟨_, e⟩ | ⟨hnd, _, _⟩
  · exact e
  · exfalso
    apply hnd
    have hpl : P2p.Spec.plain s g = P2p.Spec.members s g := by
      unfold P2p.Spec.plain
      rw [List.filter_eq_self]
      intro r _
      simp [hx, ho]
    refine ⟨x, hx, ?_, ?_⟩
    · rw [hpl]
      refine List.ne_nil_of_mem (a := p) ?_
      unfold P2p.Spec.members
      exact List.mem_filter.mpr ⟨(hI.g.i.pl p).mpr ⟨y, hp⟩, by simp [hp, hg]⟩
    · rw [hpl, (hI.g.c g x hx).2 ho]
      unfold P2p.memc P2p.Spec.members
      rw [List.countP_eq_length_filter]
      rfl

/-- **C147 (not so).** wpa_supplicant reports that a group of this device is gone while some device is still in it: the daemon's next step is undefined (the group is used after it is freed).
No session is ended in order. -/
theorem removal_crashes (jk : Nat → Byte) (env : Event.Env) (E : Sinkctl.Env) {W : World} {g p : Nat} {y : P2p.Peer} {x : P2p.Grp} (hr : ∃ zx ops, (P2p.start zx).run ops = some W.s)
    (hb : W.s.bus = true) (hp : W.s.pheap p = some y) (hg : y.g = some g) (hx : W.s.gheap g = some x) (ho : x.owner = none)
    {d : List Byte} {ps : List Event.Spec.Piece} (hl : Line d (bytes "P2P-GROUP-REMOVED") ps) (ha : Event.Spec.arg 0 ps = some x.ifname) : step jk env E W (.line d) = none := by
  obtain ⟨zx, ops, hre⟩ := hr
  have hI := P2p.reached hre
  have hst : W.s.step (.groupRemoved x.ifname) = none := by
    simp only [P2p.S.step, P2p.Op.fromWpas, hb, Bool.not_true, Bool.and_false, Bool.false_eq_true, if_false, P2p.S.handle, P2p.found_by_interface hre hx]
    exact free_crashes hI hp hg hx ho
  obtain ⟨nm, level, hv, hsp⟩ := hl.text
  obtain ⟨m, hm, hsay, -⟩ := Event.line_means jk env d nm level (bytes "P2P-GROUP-REMOVED") ps hl.short hsp ⟨by decide, by decide +kernel⟩ hv hl.ok
  simp only [step, hm, (hsay _ (.removed ps _ ha)).2, Option.bind_some, Event.Act.run, hst, Option.bind_none]

/-- **C147 (not so).** So it is when the DHCP server of such a group dies or closes its side of the socket. -/
theorem helper_gone_crashes (jk : Nat → Byte) (env : Event.Env) (E : Sinkctl.Env) {W : World} {g p : Nat} {y : P2p.Peer} {x : P2p.Grp} (hr : ∃ zx ops, (P2p.start zx).run ops = some W.s)
    (hp : W.s.pheap p = some y) (hg : y.g = some g) (hx : W.s.gheap g = some x) (ho : x.owner = none) (died : Bool) : step jk env E W (.helperGone g died) = none := by
  obtain ⟨zx, ops, hre⟩ := hr
  have hI := P2p.reached hre
  simp only [step, gone_step hI hx died, free_crashes hI hp hg hx ho, Option.bind_none]

theorem over_dials {pid : Option Nat} {id : Nat} {did : List Sinkctl.Act} (ov : Over pid id did) : did.filterMap dialled = [] := by
  obtain ⟨tail, rfl, hta⟩ := ov
  rw [List.filterMap_eq_nil_iff]
  intro a ha
  rcases hta with rfl | ⟨l, n, rfl⟩ <;> cases pid <;> simp at ha
  · rcases ha with rfl | rfl <;> rfl
  · rcases ha with rfl | rfl | rfl <;> rfl
  · rcases ha with rfl | rfl | rfl <;> rfl
  · rcases ha with rfl | rfl | rfl | rfl <;> rfl

theorem link_kept {ls ls' : List Mirror.Link} {i j : Nat} (h : ∃ l ∈ ls, l.id = i) (e : ls'.map (·.id) = ls.map (·.id)) (ij : j = i) : ∃ l ∈ ls', l.id = j := by
  obtain ⟨l, a, b⟩ := h
  have : j ∈ ls'.map (·.id) := by rw [e, ij, ← b]; exact List.mem_map_of_mem a
  obtain ⟨l', a', b'⟩ := List.mem_map.mp this
  exact ⟨l', a', b'⟩

theorem groups_again {s s1 s2 : P2p.S} (hI : P2p.Inv s) (h1 : ∀ k, k ≠ s.next → s1.gheap k = s.gheap k) (g2 : s2.gheap s.next = none) (h2 : ∀ k, k ≠ s.next → s2.gheap k = s1.gheap k) : s2.gheap = s.gheap := by
  funext k
  by_cases hk : k = s.next
  · rw [hk, g2]
    cases hz : s.gheap s.next with
    | none => rfl
    | some z => exact absurd (hI.g.i.gf _ z hz) (Nat.lt_irrefl _)
  · rw [h2 k hk, h1 k hk]

/-- Who owns the group. -/
def ownerOf (p : Nat) : Turn → Option Nat
  | .theirs _ => some p
  | .ours _ => none

/-- A turn has begun. -/
structure Live (r : Turn) (ws : List (List Byte)) (W : World) (p : Nat) (y : P2p.Peer) (q : Mirror.Peer) (g : Nat) (x : P2p.Grp) : Prop where
  on : On W p y q g x
  owner : x.owner = ownerOf p r
  iface : x.ifname = r.iface
  sole : Sole W.s g p
  how : answer y.prov y.pin = some ws
  pin : PinOk y.pin
  pend : W.s.pending = some p
  link : ∃ l ∈ W.w.links, l.id = q.l
  at_ : Sinkctl.peerAt W.w q.id = some q
  rem : q.rem = some r.source

theorem turn_begins (jk : Nat → Byte) (env : Event.Env) (E : Sinkctl.Env) {W : World} {p : Nat} {y : P2p.Peer} {q : Mirror.Peer} {ws : List (List Byte)} (h : Between W p y q ws) {r : Turn}
    (hr : r.Ok y.mac p W.s) (he : env.spawn = true ∧ env.watch = true ∧ env.mem = true) :
    ∃ W' y' q' x d, run jk env E W (r.begins W.s.next) = some W' ∧ Live r ws W' p y' q' W.s.next x ∧ y'.mac = y.mac ∧ q'.id = q.id ∧
      W'.sent = W.sent ++ [d] ∧ Ask.Spec.hear d = .order (bytes "P2P_CONNECT") (y.mac :: ws) ∧
      W'.w.app.log = W.w.app.log ++ [.accept (Daemon.peerLabel y.mac W.idx) (bytes "auto") [], .running q.id, .connect (some r.source)] ∧
      (∀ k, k ≠ W.s.next → W'.s.gheap k = W.s.gheap k) ∧ W'.s.next = W.s.next + 1 ∧ Kept W.s W'.s p ∧ W'.w.app.isOpen = E.acc (W.w.app.log.length + 2) := by
  cases r with
  | theirs r =>
    have hr : r.Ok y.mac W.s := hr
    obtain ⟨W1, d, y1, q1, e1, s1, hd, l1, -, -, op1, -, m1, -, -, at1, -, -, -, -, rm1, x, on, ow, iw, so, -, an, pn, qi, ql, pe, ix, lk, gh, nx, k1⟩ :=
      connects_partial jk env E h.meet hr.asks hr.who h.free h.pin h.how hr.starts hr.owner hr.iface hr.role hr.client ⟨he.1, he.2.1⟩ hr.fresh (gateway := r.gateway) hr.addr hr.mask hr.names hr.gate
        hr.new h.off h.qoff h.alive h.closed
    exact ⟨W1, y1, q1, x, d, e1, ⟨on, ow, iw, so, an, pn, pe, link_kept h.link lk ql, by rw [qi]; exact at1, rm1⟩, m1, qi, s1, hd, l1, gh, nx, k1, op1⟩
  | ours r =>
    have hr : r.Ok y.mac p W.s := hr
    have hmid : (if r.early then [.helper W.s.next (P2p.serverReady r.a), .line r.d3] else [.line r.d3, .helper W.s.next (P2p.serverReady r.a)]) = ([.helper W.s.next (P2p.serverReady r.a), .line r.d3] : List Ev) ∨
        (if r.early then [.helper W.s.next (P2p.serverReady r.a), .line r.d3] else [.line r.d3, .helper W.s.next (P2p.serverReady r.a)]) = ([.line r.d3, .helper W.s.next (P2p.serverReady r.a)] : List Ev) := by
      cases r.early
      · exact .inr rfl
      · exact .inl rfl
    obtain ⟨W1, d, y1, q1, e1, s1, hd, l1, -, -, op1, -, m1, -, -, at1, -, -, -, -, rm1, x, on, ow, iw, so, -, an, pn, qi, ql, pe, ix, lk, gh, nx, k1⟩ :=
      connects_owner_partial jk env E h.meet hr.asks hr.who h.free h.pin h.how hr.starts hr.owner hr.iface hr.role he hr.self hr.notSelf hr.fresh hr.free hr.joins hr.joiner hr.joined hr.addr hr.six
        hr.writes hr.leased hr.unique hr.some_ hr.text hmid h.off h.qoff h.alive h.closed
    exact ⟨W1, y1, q1, x, d, e1, ⟨on, ow, iw, so, an, pn, pe, link_kept h.link lk ql, by rw [qi]; exact at1, rm1⟩, m1, qi, s1, hd, l1, gh, nx, k1, op1⟩

theorem turn_ends (jk : Nat → Byte) (env : Event.Env) (E : Sinkctl.Env) {W : World} {p : Nat} {y : P2p.Peer} {q : Mirror.Peer} {ws : List (List Byte)} {r : Turn} {g : Nat} {x : P2p.Grp}
    (h : Live r ws W p y q g x) {s0 : P2p.S} (hr : r.Ok y.mac p s0) :
    ∃ W' y' q' d, step jk env E W (r.ends g) = some W' ∧ Between W' p y' q' ws ∧ y'.mac = y.mac ∧ W'.w.app.pid = none ∧ W'.sent = W.sent ++ [d] ∧ Ask.Spec.hear d = .order (bytes "P2P_GROUP_REMOVE") [r.iface] ∧
      (∃ did, W'.w.app.log = W.w.app.log ++ did ∧ did.filterMap dialled = []) ∧
      W'.s.gheap g = none ∧ (∀ k, k ≠ g → W'.s.gheap k = W.s.gheap k) ∧ W'.s.next = W.s.next ∧ Kept W.s W'.s p := by
  have key : ∃ W' d, step jk env E W (r.ends g) = some W' ∧ W'.sent = W.sent ++ [d] ∧ Ask.Spec.hear d = .order (bytes "P2P_GROUP_REMOVE") [r.iface] ∧ Ended W W' p y q ∧
      W'.s.gheap g = none ∧ (∀ k, k ≠ g → W'.s.gheap k = W.s.gheap k) ∧ W'.s.next = W.s.next ∧ Kept W.s W'.s p := by
    cases r with
    | theirs r =>
      have hr : r.Ok y.mac s0 := hr
      have hif : x.ifname = r.i := h.iface
      show ∃ W' d, step jk env E W (r.ends g) = some W' ∧ _
      cases he : r.ending with
      | removed =>
        obtain ⟨W2, d', e2, s2, hd', rest⟩ :=
          group_removed_ends_partial jk env E h.on h.link (hif ▸ hr.name) h.owner h.sole (hr.ends he) (by rw [hif]; exact hr.which he)
        exact ⟨W2, d', by rw [Round.ends, he]; exact e2, s2, by rw [hd', h.iface], rest⟩
      | died =>
        obtain ⟨W2, d', e2, s2, hd', rest⟩ := helper_gone_ends_partial jk env E h.on h.link (hif ▸ hr.name) h.owner h.sole true
        exact ⟨W2, d', by rw [Round.ends, he]; exact e2, s2, by rw [hd', h.iface], rest⟩
      | closed =>
        obtain ⟨W2, d', e2, s2, hd', rest⟩ := helper_gone_ends_partial jk env E h.on h.link (hif ▸ hr.name) h.owner h.sole false
        exact ⟨W2, d', by rw [Round.ends, he]; exact e2, s2, by rw [hd', h.iface], rest⟩
    | ours r =>
      have hr : r.Ok y.mac p s0 := hr
      have hif : x.ifname = r.i := h.iface
      obtain ⟨W2, ds, e2, s2, hE, so2, -, rest⟩ := leaving_ends jk env E h.on h.link (hif ▸ hr.name) h.owner hr.leaves hr.leaver
      obtain ⟨g2, d', rfl, hd'⟩ := so2 h.sole
      exact ⟨W2, d', e2, s2, by rw [hd', h.iface], hE, g2, rest⟩
  obtain ⟨W', d, e, s, hd, hE, rest⟩ := key
  obtain ⟨⟨did, l2, ov⟩, pid2, op2, al2, -, y2, q2, me, m2, c2, r2, pr2, pi2, -, qc2, -, ql2, lk2, pe2⟩ := hE
  refine ⟨W', y2, q2, d, e, ⟨me, ?_, by rw [pi2]; exact h.pin, by rw [pr2, pi2]; exact h.how, ⟨r2, c2⟩, qc2, al2, op2, link_kept h.link lk2 ql2⟩, m2, pid2, s, hd, ⟨did, l2, over_dials ov⟩, rest⟩
  rcases pe2 with k | k
  · exact .inr (k.trans h.pend)
  · exact .inl k

/-- **C148 (one round).** A device asks, is connected to, and the group ends or the device leaves; then everything is as before the request, but for what has been sent and done. -/
theorem round_partial (jk : Nat → Byte) (env : Event.Env) (E : Sinkctl.Env) {W : World} {p : Nat} {y : P2p.Peer} {q : Mirror.Peer} {ws : List (List Byte)} (h : Between W p y q ws) {r : Turn}
    (hr : r.Ok y.mac p W.s) (he : env.spawn = true ∧ env.watch = true ∧ env.mem = true) :
    ∃ W' y' q', run jk env E W (r.begins W.s.next ++ [r.ends W.s.next]) = some W' ∧ Between W' p y' q' ws ∧ y'.mac = y.mac ∧ W'.w.app.pid = none ∧
      W'.s.gheap = W.s.gheap ∧ W'.s.next = W.s.next + 1 ∧ Kept W.s W'.s p ∧
      (∃ d d', W'.sent = W.sent ++ [d, d'] ∧ Ask.Spec.hear d = .order (bytes "P2P_CONNECT") (y.mac :: ws) ∧ Ask.Spec.hear d' = .order (bytes "P2P_GROUP_REMOVE") [r.iface]) ∧
      ∃ did, W'.w.app.log = W.w.app.log ++ [.accept (Daemon.peerLabel y.mac W.idx) (bytes "auto") [], .running q.id, .connect (some r.source)] ++ did ∧ did.filterMap dialled = [] := by
  obtain ⟨zx, ops, hre⟩ := h.meet.reach
  have hI := P2p.reached hre
  obtain ⟨W1, y1, q1, x, d, e1, lv, m1, -, s1, hd, l1, gh, nx, k1, -⟩ := turn_begins jk env E h hr he
  obtain ⟨W2, y2, q2, d', e2, b2, m2, pid2, s2, hd', ⟨did, l2, dd⟩, g2, gh2, nx2, k2⟩ := turn_ends jk env E lv (m1 ▸ hr)
  refine ⟨W2, y2, q2, ?_, b2, m2.trans m1, pid2, groups_again hI gh g2 gh2, nx2.trans nx, ⟨fun r hr => (k2.1 r hr).trans (k1.1 r hr), k2.2.trans k1.2⟩, ⟨d, d', ?_, hd, hd'⟩, did, ?_, dd⟩
  · rw [run_append, e1, Option.bind_some]
    simp only [run, e2, Option.bind_some]
  · rw [s2, s1]; simp
  · rw [l2, l1]

/-- What a turn needs of the daemon is still there after another. -/
theorem ok_kept {mac : List Byte} {p : Nat} {s s' : P2p.S} {y y' : P2p.Peer} (hp : s.pheap p = some y) (hp' : s'.pheap p = some y') (hm : y'.mac = y.mac) (hg : s'.gheap = s.gheap) (hk : Kept s s' p)
    {r : Turn} (h : r.Ok mac p s) : r.Ok mac p s' := by
  cases r with
  | theirs r =>
    have h : r.Ok mac s := h
    exact { h with fresh := by rw [hg]; exact h.fresh }
  | ours r =>
    have h : r.Ok mac p s := h
    refine { h with self := hk.2.trans h.self, fresh := by rw [hg]; exact h.fresh, free := by rw [hg]; exact h.free, notSelf := ?_, unique := ?_ }
    · intro q z hz
      by_cases e : q = p
      · subst e
        rw [hp'] at hz
        cases hz
        rw [hm]
        exact h.notSelf q y hp
      · exact h.notSelf q z ((hk.1 q e).symm.trans hz)
    · intro q z hz hc
      by_cases e : q = p
      · exact e
      · exact h.unique q z ((hk.1 q e).symm.trans hz) hc

/-- **C148 (in part).** Any number of times, one after the other, in groups of the device and in groups of this device as they come: each request is taken, each time the address of the device is connected to, each group is
removed, whether wpa_supplicant ends it or its DHCP client does; nothing else is sent or connected to. In the end there is no session, no player, no connection, and both are ready for the device. Missing: what `connects_owner_partial` lacks, and groups of this device
that end before the device leaves (`removal_crashes`). -/
theorem again_and_again_partial (jk : Nat → Byte) (env : Event.Env) (E : Sinkctl.Env) (he : env.spawn = true ∧ env.watch = true ∧ env.mem = true) (p : Nat) (mac : List Byte) (ws : List (List Byte)) (rs : List Turn) :
    ∀ {W : World} {y : P2p.Peer} {q : Mirror.Peer}, Between W p y q ws → y.mac = mac → (∀ r ∈ rs, r.Ok mac p W.s) →
      ∃ W' y' q' ds did, run jk env E W (turns rs W.s.next) = some W' ∧ Between W' p y' q' ws ∧ y'.mac = mac ∧ (rs ≠ [] → W'.w.app.pid = none) ∧
        W'.sent = W.sent ++ ds ∧ ds.map Ask.Spec.hear = rs.flatMap (fun r => [.order (bytes "P2P_CONNECT") (mac :: ws), .order (bytes "P2P_GROUP_REMOVE") [r.iface]]) ∧
        W'.w.app.log = W.w.app.log ++ did ∧ did.filterMap dialled = rs.map (·.source) := by
  induction rs with
  | nil =>
    intro W y q h hm _
    exact ⟨W, y, q, [], [], rfl, h, hm, fun x => absurd rfl x, by simp, rfl, by simp, rfl⟩
  | cons r rs ih =>
    intro W y q h hm hok
    obtain ⟨W1, y1, q1, e1, b1, m1, pid1, gh1, nx1, k1, ⟨d, d', s1, hd, hd'⟩, did, l1, dl1⟩ := round_partial jk env E h (hm ▸ hok r List.mem_cons_self) he
    have hok1 : ∀ r ∈ rs, r.Ok mac p W1.s := fun r' hr' => ok_kept h.meet.peer b1.meet.peer m1 gh1 k1 (hok r' (List.mem_cons_of_mem _ hr'))
    obtain ⟨W2, y2, q2, ds2, did2, e2, b2, m2, pid2, s2, hs2, l2, dl2⟩ := ih b1 (m1.trans hm) hok1
    refine ⟨W2, y2, q2, [d, d'] ++ ds2, [.accept (Daemon.peerLabel y.mac W.idx) (bytes "auto") [], .running q.id, .connect (some r.source)] ++ did ++ did2, ?_, b2, m2, ?_, ?_, ?_, ?_, ?_⟩
    · rw [turns, run_append, e1, Option.bind_some, ← nx1]
      exact e2
    · intro _
      cases rs with
      | nil => cases e2; exact pid1
      | cons _ _ => exact pid2 (by simp)
    · rw [s2, s1]; simp
    · rw [List.map_append, hs2]
      simp [hd, hd', hm]
    · rw [l2, l1]; simp
    · rw [List.filterMap_append, List.filterMap_append, dl1, dl2]
      rfl

/-! ## On concrete bytes -/

/-- A phone asks, owns the group, and the group ends, twice. -/
def twice : List Ev :=
  [.line (bytes "<3>P2P-GO-NEG-REQUEST 02:00:00:00:00:01 dev_passwd_id=4"),
   .line (bytes "<3>P2P-GROUP-STARTED p2p-wlan0-0 client ssid=\"DIRECT-x\" freq=2437 go_dev_addr=02:00:00:00:00:01"),
   .helper 1 (bytes "L:192.168.49.20"), .helper 1 (bytes "S:255.255.255.0"), .helper 1 (bytes "G:192.168.49.1"), .timer,
   .line (bytes "<3>P2P-GROUP-REMOVED p2p-wlan0-0 client reason=GO_ENDING_SESSION"),
   .line (bytes "<3>P2P-GO-NEG-REQUEST 02:00:00:00:00:01 dev_passwd_id=4"),
   .line (bytes "<3>P2P-GROUP-STARTED p2p-wlan0-1 client ssid=\"DIRECT-y\" freq=2437 go_dev_addr=02:00:00:00:00:01"),
   .helper 2 (bytes "L:192.168.49.21"), .helper 2 (bytes "S:255.255.255.0"), .helper 2 (bytes "G:192.168.49.2"), .timer,
   .line (bytes "<3>P2P-GROUP-REMOVED p2p-wlan0-1 client reason=GO_ENDING_SESSION")]

example : (daemon.bind fun s => run (fun _ => 0) {} fine (world s) twice).map (fun W => (W.sent, W.w.app.runPeer, W.w.app.isOpen)) =
    some ([bytes "P2P_CONNECT 02:00:00:00:00:01 pbc", bytes "P2P_GROUP_REMOVE p2p-wlan0-0", bytes "P2P_CONNECT 02:00:00:00:00:01 pbc", bytes "P2P_GROUP_REMOVE p2p-wlan0-1"], none, false) := by
  decide +kernel

example : (daemon.bind fun s => run (fun _ => 0) {} fine (world s) twice).map (fun W => W.w.app.log.filterMap dialled) = some [bytes "192.168.49.1", bytes "192.168.49.2"] := by decide +kernel

/-- One of the two. -/
def first : Round :=
  { d1 := bytes "<3>P2P-GO-NEG-REQUEST 02:00:00:00:00:01 dev_passwd_id=4"
    ps1 := [.word (bytes "02:00:00:00:00:01"), .pair (bytes "dev_passwd_id") (bytes "4")]
    d2 := bytes "<3>P2P-GROUP-STARTED p2p-wlan0-0 client go_dev_addr=02:00:00:00:00:01"
    ps2 := [.word (bytes "p2p-wlan0-0"), .word (bytes "client"), .pair (bytes "go_dev_addr") (bytes "02:00:00:00:00:01")]
    d3 := bytes "<3>P2P-GROUP-REMOVED p2p-wlan0-0 client"
    ps3 := [.word (bytes "p2p-wlan0-0"), .word (bytes "client")]
    i := bytes "p2p-wlan0-0", role := bytes "client", old := none, a := bytes "192.168.49.20", gw := bytes "192.168.49.1", subnet := [bytes "255.255.255.0"], dns := [], gateway := [] }

/-- Whether a piece is well-formed can be computed. -/
instance okDecidable (p : Event.Spec.Piece) : Decidable p.Ok := by
  cases p <;> (unfold Event.Spec.Piece.Ok; try unfold Event.Spec.Simple) <;> infer_instance

theorem split_line {d t : List Byte} (h : d = t) (hp : ¬ bytes "IFNAME=" <+: d) : Wpas.Spec.Split d none t := h ▸ .plain d hp

/-- … as required of it, for the phone and any state in which its interface is new. -/
example (s : P2p.S) (h : ∀ g x, s.gheap g = some x → x.ifname ≠ bytes "p2p-wlan0-0") : first.Ok (bytes "02:00:00:00:00:01") s where
  asks := ⟨by decide +kernel, ⟨none, 3, by decide, split_line (by decide +kernel) (by decide +kernel)⟩, by decide +kernel⟩
  who := by decide +kernel
  starts := ⟨by decide +kernel, ⟨none, 3, by decide, split_line (by decide +kernel) (by decide +kernel)⟩, by decide +kernel⟩
  owner := by decide +kernel
  iface := by decide +kernel
  role := by decide +kernel
  client := by decide +kernel
  fresh := h
  name := ⟨by decide +kernel, by decide +kernel⟩
  addr := ⟨by decide +kernel, by decide +kernel, by decide +kernel⟩
  mask := by intro t ht; cases List.mem_singleton.mp ht; exact ⟨by decide +kernel, by decide +kernel, by decide +kernel⟩
  names := by intro t ht; cases ht
  gate := ⟨by decide +kernel, by decide +kernel, by decide +kernel⟩
  new := by intro e; cases e
  ends := fun _ => ⟨by decide +kernel, ⟨none, 3, by decide, split_line (by decide +kernel) (by decide +kernel)⟩, by decide +kernel⟩
  which := fun _ => by decide +kernel

/-- The phone of this device's group. -/
def hosted : List Ev :=
  [.line (bytes "<3>P2P-GO-NEG-REQUEST 02:00:00:00:00:01 dev_passwd_id=4"),
   .line (bytes "<3>P2P-GROUP-STARTED p2p-wlan0-0 GO ssid=\"DIRECT-x\" freq=2437 go_dev_addr=0a:00:00:00:00:09"),
   .helper 1 (bytes "L:192.168.50.1"),
   .line (bytes "IFNAME=p2p-wlan0-0 <3>AP-STA-CONNECTED 02:00:00:00:80:01 p2p_dev_addr=02:00:00:00:00:01"),
   .helper 1 (bytes "R:2:0:0:0:80:1 192.168.50.100"), .timer]

/-- The daemon, which knows its own address. -/
def daemon9 : Option P2p.S := (P2p.start false).run [.attached, .ready, .ownMac (bytes "0a:00:00:00:00:09"), .found (bytes "02:00:00:00:00:01") [0]]

/-- The phone leaves. -/
example : (daemon9.bind fun s => run (fun _ => 0) {} fine (world s) (hosted ++ [.line (bytes "IFNAME=p2p-wlan0-0 <3>AP-STA-DISCONNECTED 02:00:00:00:80:01 p2p_dev_addr=02:00:00:00:00:01")])).map
    (fun W => (W.sent, W.w.app.runPeer, W.w.app.isOpen)) = some ([bytes "P2P_CONNECT 02:00:00:00:00:01 pbc", bytes "P2P_GROUP_REMOVE p2p-wlan0-0"], none, false) := by decide +kernel

/-- The group is removed under it. -/
example : ((daemon9.bind fun s => run (fun _ => 0) {} fine (world s) hosted).map (fun W => W.w.app.runPeer)) = some (some 2) ∧
    ((daemon9.bind fun s => run (fun _ => 0) {} fine (world s) (hosted ++ [.line (bytes "<3>P2P-GROUP-REMOVED p2p-wlan0-0 GO reason=REQUESTED")])).isNone = true) := by decide +kernel

/-- One in a group of this device. -/
def second : Hosted :=
  { d1 := bytes "<3>P2P-GO-NEG-REQUEST 02:00:00:00:00:01 dev_passwd_id=4"
    ps1 := [.word (bytes "02:00:00:00:00:01"), .pair (bytes "dev_passwd_id") (bytes "4")]
    d2 := bytes "<3>P2P-GROUP-STARTED p2p-wlan0-1 GO go_dev_addr=0a:00:00:00:00:09"
    ps2 := [.word (bytes "p2p-wlan0-1"), .word (bytes "GO"), .pair (bytes "go_dev_addr") (bytes "0a:00:00:00:00:09")]
    d3 := bytes "IFNAME=p2p-wlan0-1 <3>AP-STA-CONNECTED 02:00:00:00:80:01 p2p_dev_addr=02:00:00:00:00:01"
    ps3 := [.word (bytes "02:00:00:00:80:01"), .pair (bytes "p2p_dev_addr") (bytes "02:00:00:00:00:01")]
    d4 := bytes "<3>AP-STA-DISCONNECTED 02:00:00:00:80:01 p2p_dev_addr=02:00:00:00:00:01"
    ps4 := [.word (bytes "02:00:00:00:80:01"), .pair (bytes "p2p_dev_addr") (bytes "02:00:00:00:00:01")]
    i := bytes "p2p-wlan0-1", own := bytes "0a:00:00:00:00:09", sta := bytes "02:00:00:00:80:01", a := bytes "192.168.50.1", early := false
    bs := [2, 0, 0, 0, 128, 1], fs := ["02", "00", "00", "00", "80", "01"].map bytes, ip := bytes "192.168.50.100" }

theorem split_of {d n t : List Byte} (e : d = bytes "IFNAME=" ++ n ++ ch ' ' :: t) (h : ch ' ' ∉ n) (h0 : 0 ∉ n) : Wpas.Spec.Split d (some n) t := e ▸ .iface n t h h0

/-- … as required of it, for any state that knows its own address, with no other device of these addresses and a free subnet, and in which the interface is new. -/
example (s : P2p.S) (p : Nat) (hs : s.p2pMac = some (bytes "0a:00:00:00:00:09")) (hno : ∀ q z, s.pheap q = some z → z.mac ≠ bytes "0a:00:00:00:00:09")
    (hu : ∀ q z, s.pheap q = some z → (z.mac = bytes "02:00:00:00:80:01" ∨ z.sta = some (bytes "02:00:00:00:80:01")) → q = p)
    (h : ∀ g x, s.gheap g = some x → x.ifname ≠ bytes "p2p-wlan0-1" ∧ x.subnet ≠ 77) : second.Ok (bytes "02:00:00:00:00:01") p s where
  asks := ⟨by decide +kernel, ⟨none, 3, by decide, split_line (by decide +kernel) (by decide +kernel)⟩, by decide +kernel⟩
  who := by decide +kernel
  starts := ⟨by decide +kernel, ⟨none, 3, by decide, split_line (by decide +kernel) (by decide +kernel)⟩, by decide +kernel⟩
  owner := by decide +kernel
  iface := by decide +kernel
  role := by decide +kernel
  self := hs
  notSelf := hno
  fresh := fun g x hx => (h g x hx).1
  free := ⟨77, by decide, by decide, fun g x hx => (h g x hx).2⟩
  name := ⟨by decide +kernel, by decide +kernel⟩
  joins := ⟨by decide +kernel, ⟨3, by decide, split_of (by decide +kernel) (by decide +kernel) (by decide +kernel)⟩, by decide +kernel⟩
  joiner := by decide +kernel
  joined := by decide +kernel
  addr := ⟨by decide +kernel, by decide +kernel, by decide +kernel⟩
  six := rfl
  writes := by
    have w : ∀ c d : Byte, ∀ h l : Nat, ∀ b : Byte, Mac.Spec.Digit c h → Mac.Spec.Digit d l → b.toNat = h * 16 + l → Mac.Spec.Writes [c, d] b := fun c d h l b x y z => .inr ⟨c, d, h, l, rfl, x, y, z⟩
    have d0 : Mac.Spec.Digit (ch '0') 0 := .inl (by decide)
    have d1 : Mac.Spec.Digit (ch '1') 1 := .inl (by decide)
    have d2 : Mac.Spec.Digit (ch '2') 2 := .inl (by decide)
    have d8 : Mac.Spec.Digit (ch '8') 8 := .inl (by decide)
    exact .cons (w _ _ 0 2 _ d0 d2 rfl) (.cons (w _ _ 0 0 _ d0 d0 rfl) (.cons (w _ _ 0 0 _ d0 d0 rfl) (.cons (w _ _ 0 0 _ d0 d0 rfl) (.cons (w _ _ 8 0 _ d8 d0 rfl) (.cons (w _ _ 0 1 _ d0 d1 rfl) .nil)))))
  leased := .inr (by decide +kernel)
  unique := by
    have e : Mac.format second.bs = bytes "02:00:00:00:80:01" := by decide +kernel
    rw [e]; exact hu
  some_ := by decide +kernel
  text := ⟨by decide +kernel, by decide +kernel, by decide +kernel⟩
  leaves := ⟨by decide +kernel, ⟨none, 3, by decide, split_line (by decide +kernel) (by decide +kernel)⟩, by decide +kernel⟩
  leaver := by decide +kernel

/-- The DHCP client dies. -/
def third : Round := { first with ending := .died }

/-- A group of the device, one of this device, and one of the device again. -/
def mixed : List Ev := turns [.theirs first, .ours second, .theirs third] 1

/-- The DHCP server dies while the phone is in the group. -/
example : ((daemon9.bind fun s => run (fun _ => 0) {} fine (world s) (hosted ++ [.helperGone 1 true])).isNone = true) ∧
    ((daemon9.bind fun s => run (fun _ => 0) {} fine (world s) (hosted ++ [.helperGone 1 false])).isNone = true) := by decide +kernel

example : (daemon9.bind fun s => run (fun _ => 0) {} fine (world s) mixed).map (fun W => (W.sent, W.w.app.runPeer, W.w.app.isOpen)) =
    some ([bytes "P2P_CONNECT 02:00:00:00:00:01 pbc", bytes "P2P_GROUP_REMOVE p2p-wlan0-0", bytes "P2P_CONNECT 02:00:00:00:00:01 pbc", bytes "P2P_GROUP_REMOVE p2p-wlan0-1",
      bytes "P2P_CONNECT 02:00:00:00:00:01 pbc", bytes "P2P_GROUP_REMOVE p2p-wlan0-0"], none, false) := by decide +kernel

example : (daemon9.bind fun s => run (fun _ => 0) {} fine (world s) mixed).map (fun W => W.w.app.log.filterMap dialled) = some [bytes "192.168.49.1", bytes "192.168.50.100", bytes "192.168.49.1"] := by
  decide +kernel

end Verif.Phone
