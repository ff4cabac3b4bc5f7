import Verif.Proof.P2pLines
import Verif.Proof.P2pNames
/-!
# Peers and groups (C44 – C47, C49, C77, C78, C150)

`(start zx).run ops = some s` says that `s` is reached by some history of events without undefined behaviour;
every theorem is about all of them.
-/
namespace Verif.P2p
open Verif.C Spec

/-! ## Concrete histories used by the examples -/

def mA : List Byte := bytes "02:00:00:00:00:0a"
def mB : List Byte := bytes "02:00:00:00:00:0b"
def own : List Byte := bytes "02:00:00:00:00:01"
def ifn : List Byte := bytes "p2p-wlan0-0"
/-- Two peers (0 and 1) are known. -/
def base : List Op := [.attached, .ready, .ownMac own, .found mA [], .found mB []]
/-- Peer 0 owns group 2, of which this device is a client. -/
def client : List Op := base ++ [.groupStarted mA ifn false true true]
/-- Peer 0 is in group 2, which this device owns. -/
def server : List Op := base ++ [.groupStarted own ifn true true true, .staConnected mA mA (some ifn) true]
/-- A line of the helper of group 2. -/
def line (t : String) : Op := .comm 2 (.line (bytes t)) true true

/-! ## C45: subnets -/

/-- **C45 (groups).** Two live groups owned by this device never have the same subnet, and it is in 50 … 255. -/
theorem subnets_distinct {zx : Bool} {ops : List Op} {s : S} (h : (start zx).run ops = some s) {g k : Nat} {x z : Grp}
    (hx : s.gheap g = some x) (hz : s.gheap k = some z) (hgx : x.go = true) :
    (50 ≤ x.subnet ∧ x.subnet < 256) ∧ (z.go = true → x.subnet = z.subnet → g = k) := by
  have hi := (reached h).g.i
  have h1 := (hi.sub g x hx).1 hgx
  exact ⟨h1, fun _ e => hi.dis g k x z hx hz e (by omega)⟩

/-- **C45 (helper processes).** At any time the DHCP servers that were started and not yet killed serve different
subnets, all in 50 … 255 (0 stands for a helper that is a DHCP client), and there is one exactly for each live group. -/
theorem helpers_distinct {zx : Bool} {ops : List Op} {s : S} (h : (start zx).run ops = some s) :
    (∀ g n, tends g .never s.log = some (.up n) → n = 0 ∨ (50 ≤ n ∧ n < 256)) ∧
    (∀ g k n, n ≠ 0 → tends g .never s.log = some (.up n) → tends k .never s.log = some (.up n) → g = k) ∧
    (∀ g, (∃ n, tends g .never s.log = some (.up n)) ↔ g ∈ s.groups) := by
  have hg := (reached h).g
  refine ⟨?_, ?_, ?_⟩
  · intro g n hu
    obtain ⟨x, hx, e⟩ := hg.up_group hu
    obtain ⟨h1, h2⟩ := hg.i.sub g x hx
    cases hgo : x.go with
    | false => left; rw [← e]; exact h2 hgo
    | true => right; rw [← e]; exact h1 hgo
  · intro g k n h0 hu hv
    obtain ⟨x, hx, e⟩ := hg.up_group hu
    obtain ⟨z, hz, f⟩ := hg.up_group hv
    exact hg.i.dis g k x z hx hz (e.trans f.symm) (by rw [e]; exact h0)
  · intro g
    rw [hg.i.gl]
    constructor
    · rintro ⟨n, hn⟩; obtain ⟨x, hx, _⟩ := hg.up_group hn; exact ⟨x, hx⟩
    · rintro ⟨x, hx⟩; exact ⟨_, hg.helper_up hx⟩

/-- The history of each helper makes sense: it is started at most once, and killed at most once, after it was started. -/
theorem helpers_sound {zx : Bool} {ops : List Op} {s : S} (h : (start zx).run ops = some s) (g : Nat) : ∃ k, tends g .never s.log = some k := by
  obtain ⟨k, a, _⟩ := (reached h).g.helper g
  exact ⟨k, a⟩

/-- **C45 (creation).** When this device starts to own a group on a new interface and the helper can be started, either
a DHCP server is started on a subnet that none uses, or all 206 subnets are in use and no helper is started. -/
theorem group_creation {zx : Bool} {ops : List Op} {s : S} (h : (start zx).run ops = some s) (hb : s.bus = true) (mac i : List Byte)
    (hk : (∃ p y, s.pheap p = some y ∧ y.mac = mac) ∨ s.p2pMac = some mac) (hn : ∀ g x, s.gheap g = some x → x.ifname ≠ i) :
    ∃ s', s.step (.groupStarted mac i true true true) = some s' ∧
      ((∃ g n, 50 ≤ n ∧ n < 256 ∧ (∀ k, tends k .never s.log ≠ some (.up n)) ∧ tends g .never s.log = some .never ∧ tends g .never s'.log = some (.up n)) ∨
       ((∀ n, 50 ≤ n → n < 256 → ∃ k, tends k .never s.log = some (.up n)) ∧
         ∀ g n, tends g .never s'.log = some (.up n) → tends g .never s.log = some (.up n))) := by
  have hI := reached h
  have hg := hI.g
  have hfg : s.findGroup i = none := by
    cases hf : s.findGroup i with
    | none => rfl
    | some g => obtain ⟨_, x, hx, e⟩ := findGroup_some hf; exact absurd e (hn g x hx)
  have hne : ¬ (s.findPeer mac = none ∧ s.p2pMac ≠ some mac) := by
    rintro ⟨h1, h2⟩
    rcases hk with ⟨p, y, hp, hm⟩ | hk
    · rw [hg.findPeer hp hm] at h1; cases h1
    · exact h2 hk
  obtain ⟨s', e, hI'⟩ := handle_harmless hI (.groupStarted mac i true true true) rfl (fun _ => hb)
  have hstep : s.step (.groupStarted mac i true true true) = some s' := by
    unfold S.step; rw [if_neg (by simp [hb])]; exact e
  refine ⟨s', hstep, ?_⟩
  simp only [S.handle] at e
  rw [if_neg hne, hfg] at e
  simp only [] at e
  rcases groupNew_case hg i true true true with ⟨t, ht, ⟨ht1, ht2⟩, e1, hwhy⟩ | ⟨_, _, hgo, e1⟩
  · right
    rw [e1] at e
    simp only [Option.some.injEq] at e
    subst e
    have h0 : s.freeSubnet = 0 := by simpa using hwhy
    refine ⟨?_, ?_⟩
    · intro n h1 h2
      obtain ⟨k, _, x, hx, hs⟩ := freeSubnet_zero h0 n h1 h2
      exact ⟨k, by rw [← hs]; exact hg.helper_up hx⟩
    · intro k n hu
      obtain ⟨x, hx, es⟩ := hI'.g.up_group hu
      rw [← es]; exact hg.helper_up hx
  · left
    rw [e1] at e
    have hgo := hgo rfl
    obtain ⟨f1, f2, f3⟩ := freeSubnet_some hgo
    obtain ⟨s1, r, e2, g1, _⟩ := hg.groupNew i true true true
    rw [e1] at e2
    cases e2
    refine ⟨s.next, s.freeSubnet, f1, f2, ?_, ?_, ?_⟩
    · intro k hu
      obtain ⟨x, hx, es⟩ := hg.up_group hu
      exact f3 k ((hg.i.gl k).mpr ⟨x, hx⟩) x hx es
    · obtain ⟨k, a, _, c⟩ := hg.w s.next
      rw [a, c (Nat.le_refl _)]
    · have fin : ∃ x, s'.gheap s.next = some x ∧ x.subnet = s.freeSubnet := by
        simp only [if_true] at e
        split at e
        · cases e
          exact ⟨_, upd_same _ _ _, rfl⟩
        · rename_i p hf
          obtain ⟨_, y, hy, _⟩ := findPeer_some hf
          obtain ⟨s2, a, b, ⟨x', hx', hs'⟩, _⟩ := g1.setGroup (p := p) (y := y) (g := s.next) hy (upd_same _ _ _)
          simp only [if_true] at a
          rw [a] at e
          simp only [hx'] at e
          cases e
          exact ⟨_, upd_same _ _ _, hs'⟩
      obtain ⟨x, hx, es⟩ := fin
      rw [← es]
      exact hI'.g.helper_up hx

example : ((start true).run server).map (fun s => (s.groups, tends 2 .never s.log)) = some ([2], some (.up 50)) := by decide +kernel
example : ((start true).run (server ++ [.groupStarted own (bytes "p2p1") true true true])).map (fun s => (s.groups, tends 3 .never s.log)) = some ([3, 2], some (.up 51)) := by
  decide +kernel

/-! ## C46: references to groups -/

/-- **C46 (what is undefined).** A step from a reachable state is undefined exactly if it destroys a group that is
`Doomed` or looks at the owner of a group that is gone. -/
theorem undefined_exactly {zx : Bool} {ops : List Op} {s : S} (h : (start zx).run ops = some s) (op : Op) :
    s.step op = none ↔ (∃ g, Destroys s op g ∧ Doomed s g) ∨ Dangles s op := by
  rcases step_case (reached h) op with ⟨a, b⟩ | ⟨a, s', b, _⟩
  · exact ⟨fun _ => a, fun _ => b⟩
  · constructor
    · intro e; rw [b] at e; cases e
    · intro e; exact absurd e a

/-- **C46 (partial: the counter).** Every group a peer points at is alive and in the list; the counter of a group is
at least the number of its members, and exactly that if no peer ever became its owner. -/
theorem users_partial {zx : Bool} {ops : List Op} {s : S} (h : (start zx).run ops = some s) :
    (∀ p y g, s.pheap p = some y → y.g = some g → g ∈ s.groups ∧ ∃ x, s.gheap g = some x) ∧
    (∀ g x, s.gheap g = some x → (members s g).length ≤ x.users ∧ (x.owner = none → x.users = (members s g).length)) ∧
    (∀ g, g ∈ s.groups ↔ ∃ x, s.gheap g = some x) ∧ s.groups.Nodup := by
  have hg := (reached h).g
  refine ⟨?_, ?_, hg.i.gl, hg.i.gn⟩
  · intro p y g hp hy
    obtain ⟨x, hx⟩ := hg.i.pg p y g hp hy
    exact ⟨(hg.i.gl g).mpr ⟨x, hx⟩, x, hx⟩
  · intro g x hx
    have : memc s g = (members s g).length := by
      unfold memc members; rw [List.countP_eq_length_filter]; rfl
    rw [← this]
    exact hg.c g x hx

/-- **C150.** No two groups are on the same interface. -/
theorem one_group_per_interface {zx : Bool} {ops : List Op} {s : S} (h : (start zx).run ops = some s) {g k : Nat} {x z : Grp}
    (hx : s.gheap g = some x) (hz : s.gheap k = some z) (he : x.ifname = z.ifname) : g = k :=
  run_names ops (Inv.start zx) (start_names zx) h g k x z hx hz he

/-- **C150.** So an interface names its group: the one found is the one that is there. -/
theorem found_by_interface {zx : Bool} {ops : List Op} {s : S} (h : (start zx).run ops = some s) {g : Nat} {x : Grp} (hx : s.gheap g = some x) :
    s.findGroup x.ifname = some g := by
  cases hf : s.findGroup x.ifname with
  | none =>
    unfold S.findGroup at hf
    rw [List.find?_eq_none] at hf
    have := hf g (((reached h).g.i.gl g).mpr ⟨x, hx⟩)
    simp [hx] at this
  | some k =>
    obtain ⟨_, z, hz, e⟩ := findGroup_some hf
    rw [one_group_per_interface h hz hx e]

/-- **C150.** wpa_supplicant reports that the group on an interface is removed: that group goes and no other (unless this is undefined, C46). -/
theorem removed_by_interface {zx : Bool} {ops : List Op} {s s' : S} (h : (start zx).run ops = some s) (hb : s.bus = true) {g : Nat} {x : Grp} (hx : s.gheap g = some x)
    (hs : s.step (.groupRemoved x.ifname) = some s') : s'.gheap g = none ∧ ∀ k, k ≠ g → s'.gheap k = s.gheap k := by
  simp only [S.step, Op.fromWpas, hb, Bool.not_true, Bool.and_false, Bool.false_eq_true, if_false, S.handle, found_by_interface h hx] at hs
  rcases (reached h).g.groupFree hx with ⟨_, e⟩ | ⟨_, e, _⟩
  · rw [e] at hs; cases hs
  · rw [e] at hs
    cases hs
    exact ⟨by rw [freed_gheap]; exact upd_same _ _ _, fun k hk => by rw [freed_gheap]; exact upd_ne _ _ hk⟩

/-- Two groups on their interfaces; the second message about the first does not make a third. -/
example : ((start true).run [.attached, .ready, .found (bytes "02:00:00:00:00:01") [0], .groupStarted (bytes "02:00:00:00:00:01") (bytes "p2p-a") false true true,
      .ownMac (bytes "02:00:00:00:00:02"), .groupStarted (bytes "02:00:00:00:00:02") (bytes "p2p-b") true true true,
      .groupStarted (bytes "02:00:00:00:00:01") (bytes "p2p-a") false true true]).map (fun s => s.groups.map fun g => (s.gheap g).map (·.ifname)) =
    some [some (bytes "p2p-b"), some (bytes "p2p-a")] := by decide +kernel

/-- **C46 (refuted: removal of a group this device owns).** Whenever a group without an owner has a member, its removal
by wpa_supplicant, the death of its helper and an error on its socket are undefined behaviour: the group is freed
while it is being freed. -/
theorem local_removal_undefined {zx : Bool} {ops : List Op} {s : S} (h : (start zx).run ops = some s) {g p : Nat} {x : Grp} {y : Peer}
    (hx : s.gheap g = some x) (ho : x.owner = none) (hp : s.pheap p = some y) (hy : y.g = some g) :
    s.step (.helperDied g) = none ∧ (∀ a b, s.step (.comm g .hup a b) = none) ∧
    (s.bus = true → s.step (.groupRemoved x.ifname) = none) := by
  have hg := (reached h).g
  have hin : g ∈ s.groups := (hg.i.gl g).mpr ⟨x, hx⟩
  have hmem : p ∈ members s g := List.mem_filter.mpr ⟨(hg.i.pl p).mpr ⟨y, hp⟩, by simp [hp, hy]⟩
  have hpl : plain s g = members s g := by
    unfold plain
    rw [List.filter_eq_self]
    intro q _
    simp [hx, ho]
  have hd : Doomed s g := by
    refine ⟨x, hx, ?_, ?_⟩
    · rw [hpl]; intro e; rw [e] at hmem; cases hmem
    · rw [hpl]; exact ((users_partial h).2.1 g x hx).2 ho
  refine ⟨?_, ?_, ?_⟩
  · exact (undefined_exactly h _).mpr (Or.inl ⟨g, ⟨rfl, hin⟩, hd⟩)
  · intro a b; exact (undefined_exactly h _).mpr (Or.inl ⟨g, ⟨rfl, hin⟩, hd⟩)
  · intro hb
    exact (undefined_exactly h _).mpr (Or.inl ⟨g, ⟨hb, found_by_interface h hx⟩, hd⟩)

/-- **C46 (leaving).** When a peer leaves its group (it is lost, disconnected, or told to disconnect), the group is
freed – with one request to remove it, and its helper is killed – exactly if the peer is not its owner and holds the last
reference; otherwise the group stays, its helper keeps running and no removal is requested. No other group is touched. -/
theorem leave_effect {zx : Bool} {ops : List Op} {s : S} (h : (start zx).run ops = some s) {op : Op} {p g : Nat} {y : Peer} {x : Grp}
    (hl : Leaves s op p) (hp : s.pheap p = some y) (hy : y.g = some g) (hx : s.gheap g = some x) :
    ∃ s', s.step op = some s' ∧ (∀ z, s'.pheap p = some z → z.g = none) ∧ (∀ q, q ≠ p → s'.pheap q = s.pheap q) ∧ (∀ k, k ≠ g → s'.gheap k = s.gheap k) ∧
      (x.owner ≠ some p ∧ x.users = 1 → g ∉ s'.groups ∧ tends g .never s'.log = some .down ∧
        removals x.ifname s'.log = removals x.ifname s.log + (if s.bus then 1 else 0)) ∧
      (¬ (x.owner ≠ some p ∧ x.users = 1) → g ∈ s'.groups ∧ tends g .never s'.log = some (.up x.subnet) ∧
        ∀ i, removals i s'.log = removals i s.log) := by
  obtain ⟨s', e, i', a, b, c, ⟨t, ht⟩, d⟩ := leave_step (reached h) hl hp hy hx
  refine ⟨s', e, b, a, c, ?_, ?_⟩
  · intro hc
    rw [if_pos hc] at d
    refine ⟨?_, ?_, ?_⟩
    · intro hin; obtain ⟨z, hz⟩ := (i'.g.i.gl g).mp hin; rw [d.1] at hz; cases hz
    · -- the helper was running, so now it is down
      obtain ⟨k, h1, h2, h3⟩ := i'.g.w g
      rw [d.1] at h2
      cases k with
      | down => exact h1
      | up n => exact absurd rfl (h2 n)
      | never =>
        rw [ht, tends_append, (reached h).g.helper_up hx] at h1
        have := tends_never t h1
        cases this
    · rw [d.2]; simp
  · intro hc
    rw [if_neg hc] at d
    have hu := i'.g.helper_up d.1
    exact ⟨(i'.g.i.gl g).mpr ⟨_, d.1⟩, hu, d.2⟩

/-- **C46 (partial: groups without an owner).** A group no peer owns is freed exactly when its last member leaves. -/
theorem last_member_partial {zx : Bool} {ops : List Op} {s : S} (h : (start zx).run ops = some s) {op : Op} {p g : Nat} {y : Peer} {x : Grp}
    (hl : Leaves s op p) (hp : s.pheap p = some y) (hy : y.g = some g) (hx : s.gheap g = some x) (ho : x.owner = none) :
    ∃ s', s.step op = some s' ∧ (g ∉ s'.groups ↔ members s g = [p]) ∧ (members s g = [p] → tends g .never s'.log = some .down) := by
  obtain ⟨s', e, _, _, _, a, b⟩ := leave_effect h hl hp hy hx
  have hg := (reached h).g
  have hu := ((users_partial h).2.1 g x hx).2 ho
  have hmem : p ∈ members s g := List.mem_filter.mpr ⟨(hg.i.pl p).mpr ⟨y, hp⟩, by simp [hp, hy]⟩
  have hone : members s g = [p] ↔ x.users = 1 := by
    rw [hu]
    constructor
    · intro e; rw [e]; rfl
    · intro e
      match hm : members s g with
      | [] => rw [hm] at e; cases e
      | [q] => rw [hm] at hmem; simp at hmem; rw [hmem]
      | q :: r :: t => rw [hm] at e; simp at e
  refine ⟨s', e, ?_, ?_⟩
  · rw [hone]
    constructor
    · intro hn
      by_contra h1
      exact hn (b (fun h2 => h1 h2.2)).1
    · intro h1
      exact (a ⟨by rw [ho]; simp, h1⟩).1
  · intro hm
    exact (a ⟨by rw [ho]; simp, hone.mp hm⟩).2.1

/-- **C46 (refuted: the owner leaves).** When the owner of a group leaves it, the group is never freed: it stays in the
list, its helper keeps running, and its removal is not requested – also if the owner was its only member. -/
theorem owner_leaves_leak {zx : Bool} {ops : List Op} {s : S} (h : (start zx).run ops = some s) {op : Op} {p g : Nat} {y : Peer} {x : Grp}
    (hl : Leaves s op p) (hp : s.pheap p = some y) (hy : y.g = some g) (hx : s.gheap g = some x) (ho : x.owner = some p) :
    ∃ s', s.step op = some s' ∧ g ∈ s'.groups ∧ tends g .never s'.log = some (.up x.subnet) ∧ ∀ i, removals i s'.log = removals i s.log := by
  obtain ⟨s', e, _, _, _, _, b⟩ := leave_effect h hl hp hy hx
  obtain ⟨b1, b2, b3⟩ := b (fun hc => hc.1 ho)
  exact ⟨s', e, b1, b2, b3⟩

/-- **C46 (the end).** Tearing the supplicant down is always defined; afterwards there is no peer, no group and no
running helper. -/
theorem stopped_clears {zx : Bool} {ops : List Op} {s : S} (h : (start zx).run ops = some s) :
    ∃ s', s.step .stopped = some s' ∧ s'.peers = [] ∧ s'.groups = [] ∧ s'.pending = none ∧ (∀ g, s'.gheap g = none) ∧ (∀ p, s'.pheap p = none) ∧
      ∀ g n, tends g .never s'.log ≠ some (.up n) := by
  have hI := reached h
  obtain ⟨s1, a, b, c, d⟩ := Good.freePeers s.peers (hI.g.flags false s.running s.p2pMac) rfl
  obtain ⟨s2, a2, b2, c2, d2, e2⟩ := Good.freeGroups s1.groups.length b c rfl
  have e : s.step .stopped = some { s2 with p2pMac := none, running := false } := by
    simp only [S.step, Op.fromWpas, S.handle, Bool.false_and, Bool.false_eq_true, if_false]
    rw [a]
    simp only [a2]
  have hgn : ∀ g, s2.gheap g = none := by
    intro g
    cases hx : s2.gheap g with
    | none => rfl
    | some x => have := (b2.i.gl g).mpr ⟨x, hx⟩; rw [d2] at this; cases this
  have hpn : ∀ p, s2.pheap p = none := by
    intro p
    cases hx : s2.pheap p with
    | none => rfl
    | some x => have := (b2.i.pl p).mpr ⟨x, hx⟩; rw [c2] at this; cases this
  refine ⟨_, e, c2, d2, ?_, hgn, hpn, ?_⟩
  · cases hx : s2.pending with
    | none => rfl
    | some p => obtain ⟨y, hy⟩ := b2.i.pe p hx; rw [hpn] at hy; cases hy
  · intro g n
    exact b2.down (hgn g) n

-- the owner of a group is in it, and leaves: the group stays with one reference and its helper
example : ((start true).run (client ++ [.disconnect mA])).map (fun s => (s.groups, (s.gheap 2).map (·.users), members s 2, tends 2 .never s.log)) =
    some ([2], some 1, [], some (.up 0)) := by decide +kernel
-- the owner is lost, then the helper says something: undefined
example : ((start true).run (client ++ [.lost mA])).isSome = true ∧ ((start true).run (client ++ [.lost mA, line "L:192.168.49.10"])).isNone = true := by decide +kernel
-- a group this device owns is removed while a peer is in it: undefined
example : ((start true).run server).map (fun s => (s.groups, members s 2, (s.gheap 2).map (·.owner))) = some ([2], [0], some none) ∧
    ((start true).run (server ++ [.groupRemoved ifn])).isNone = true ∧ ((start true).run (server ++ [.helperDied 2])).isNone = true := by decide +kernel
-- the last member leaves
example : ((start true).run (server ++ [.staDisconnected mA])).map (fun s => (s.groups, tends 2 .never s.log, removals ifn s.log)) = some ([], some .down, 1) := by decide +kernel
example : ((start true).run (server ++ [.stopped])).map (fun s => (s.peers, s.groups, removals ifn s.log)) = some ([], [], 0) := by decide +kernel

/-! ## C47: the pending attempt -/

/-- **C47 (the pending peer is alive).** -/
theorem pending_live {zx : Bool} {ops : List Op} {s : S} (h : (start zx).run ops = some s) {p : Nat} (hp : s.pending = some p) :
    p ∈ s.peers ∧ ∃ y, s.pheap p = some y := by
  have hg := (reached h).g
  obtain ⟨y, hy⟩ := hg.i.pe p hp
  exact ⟨(hg.i.pl p).mpr ⟨y, hy⟩, y, hy⟩

/-- **C47 (one at a time).** While an attempt is pending, asking for another peer fails with EALREADY (114) and does
nothing else. -/
theorem connect_busy {zx : Bool} {ops : List Op} {s : S} (h : (start zx).run ops = some s) {p q : Nat} {y : Peer} {mac : List Byte}
    (hq : s.pending = some q) (hne : p ≠ q) (hp : s.pheap p = some y) (hm : y.mac = s.norm mac) (hs : y.shown = true) (hg : y.g = none)
    (hr : s.running = true) (prov pin : Option (List Byte)) (call : Bool) :
    s.step (.connect mac prov pin call) = some (s.emit (.result (-114))) := by
  have hf := (reached h).g.findPeer hp hm
  simp only [S.step, Op.fromWpas, S.handle, hf, hp, Bool.false_and, Bool.false_eq_true, if_false, Option.any_some, hs, if_true, S.connect, hr]
  rw [if_neg (by simp), if_neg (by simp [hg]), if_pos ⟨by simp [hq], by rw [hq]; simpa using Ne.symm hne⟩]

/-- **C47 (it is started).** If nothing is pending, asking for a peer with the push-button method sends one request to
connect to it, and its attempt is pending. -/
theorem connect_pbc {zx : Bool} {ops : List Op} {s : S} (h : (start zx).run ops = some s) {p : Nat} {y : Peer} {mac : List Byte}
    (hq : s.pending = none ∨ s.pending = some p) (hp : s.pheap p = some y) (hm : y.mac = s.norm mac) (hs : y.shown = true) (hg : y.g = none)
    (hr : s.running = true) (pin : Option (List Byte)) :
    ∃ s', s.step (.connect mac (some (bytes "pbc")) pin true) = some s' ∧ s'.pending = some p ∧ s'.log = s.log ++ [.connect y.mac (bytes "pbc") none, .result 0] := by
  have hf := (reached h).g.findPeer hp hm
  refine ⟨(({ s with pending := some p } : S).emit (.connect y.mac (bytes "pbc") none)).emit (.result 0), ?_, rfl, by simp [S.emit]⟩
  simp only [S.step, Op.fromWpas, S.handle, hf, hp, Bool.false_and, Bool.false_eq_true, if_false, Option.any_some, hs, if_true, S.connect, hr]
  rw [if_neg (by simp), if_neg (by simp [hg]), if_neg (by rintro ⟨a, b⟩; rcases hq with e | e; rw [e] at a; cases a; exact b e)]
  simp

/-- **C47 (the peer disappears).** When the pending peer is lost, nothing is pending any more. -/
theorem pending_cleared {zx : Bool} {ops : List Op} {s : S} (h : (start zx).run ops = some s) (hb : s.bus = true) {p : Nat} {y : Peer}
    (hq : s.pending = some p) (hp : s.pheap p = some y) :
    ∃ s', s.step (.lost y.mac) = some s' ∧ s'.pending = none ∧ s'.pheap p = none ∧ p ∉ s'.peers := by
  have hI := reached h
  have hf := hI.g.findPeer hp rfl
  obtain ⟨s', a, b, c, _, _, d, _, e, _⟩ := hI.g.peerFree hp
  refine ⟨s', by simp [S.step, hb, S.handle, hf, a], ?_, e, ?_⟩
  · rw [d, if_pos hq]
  · rw [c]; exact fun hin => ((hI.g.i.pn.mem_erase_iff).mp hin).1 rfl

/-- **C78 (refuted: a finished attempt makes room).** Whatever happens, a pending attempt stays pending unless it fails,
its peer disconnects or disappears, a new search is started, or the supplicant goes away. In particular neither the
start of the group nor the peer becoming connected ends it. -/
theorem pending_stays {zx : Bool} {ops : List Op} {s s' : S} (h : (start zx).run ops = some s) {p : Nat} (hq : s.pending = some p)
    {op : Op} (hn : ¬ Ends s op p) (e : s.step op = some s') : s'.pending = some p := by
  have hI := reached h
  suffices hs : s'.pending = s.pending ∨ s'.pending = some p by
    rcases hs with hs | hs
    · rw [hs, hq]
    · exact hs
  unfold S.step at e
  split at e
  · cases e; exact Or.inl rfl
  · cases op with
    | found mac order => exact Or.inl (pend_parsePeer e)
    | lost mac =>
      left
      simp only [S.handle] at e
      split at e
      · cases e; rfl
      · rename_i r hf
        obtain ⟨_, y, hy, hm⟩ := findPeer_some hf
        obtain ⟨s1, a, _, _, _, _, d, _⟩ := hI.g.peerFree hy
        rw [a] at e; cases e
        rw [d, if_neg]
        intro hr
        rw [hq] at hr; cases hr
        exact hn ⟨y, hy, hm⟩
    | provision mac prov pin mem =>
      left
      simp only [S.handle] at e
      split at e
      · cases e; rfl
      · split at e
        · cases e
        · split at e
          · cases e; rfl
          · cases e; rw [emitIf_eq]; rfl
    | negotiation mac =>
      left
      simp only [S.handle] at e
      split at e
      · cases e; rfl
      · split at e
        · cases e
        · cases e
          rw [emitIf_eq]
          split <;> rfl
    | negotiated mac sta mem =>
      left
      simp only [S.handle] at e
      split at e
      · cases e; rfl
      · split at e
        · cases e
        · split at e <;> (cases e; rfl)
    | groupStarted mac ifname go spawn watch =>
      left
      simp only [S.handle] at e
      split at e
      · cases e; rfl
      · have fin : ∀ s1 g, s1.pending = s.pending → (match s.findPeer mac with
            | none => some s1
            | some p => match s1.setGroup p g with
              | none => none
              | some s2 => match s2.gheap g with
                | none => none
                | some x => some (s2.setGrp g { x with owner := some p })) = some s' → s'.pending = s.pending := by
          intro s1 g h1 e
          split at e
          · cases e; exact h1
          · split at e
            · cases e
            · rename_i s2 e2
              split at e
              · cases e
              · cases e
                exact (pend_setGroup e2).trans h1
        cases hf : s.findGroup ifname with
        | some g => rw [hf] at e; exact fin s g rfl e
        | none =>
          rw [hf] at e
          simp only [] at e
          split at e
          · cases e
          · rename_i s1 e1; cases e; exact pend_groupNew e1
          · rename_i s1 g e1; exact fin s1 g (pend_groupNew e1) e
    | groupRemoved ifname =>
      left
      simp only [S.handle] at e
      split at e
      · cases e; rfl
      · exact pend_groupFree _ _ _ _ e
    | formationFailed => exact absurd trivial hn
    | staConnected mac sta ifname mem =>
      left
      simp only [S.handle] at e
      split at e
      · cases e; rfl
      · split at e
        · cases e
        · split at e
          · cases e; rfl
          · split at e
            · cases e; rfl
            · split at e
              · cases e; rfl
              · split at e
                · cases e; rfl
                · have := pend_setGroup e; exact this
    | staDisconnected mac =>
      left
      simp only [S.handle] at e
      split at e
      · cases e; rfl
      · rename_i r hf
        obtain ⟨_, y, hy, hm⟩ := findPeer_some hf
        simp only [hy] at e
        rw [if_neg (by intro hr; rw [hq] at hr; cases hr; exact hn ⟨y, hy, hm⟩)] at e
        exact pend_dropGroup e
    | comm g c m1 m2 =>
      left
      simp only [S.handle] at e
      split at e
      · exact pend_comm e
      · cases e; rfl
    | helperDied g =>
      left
      simp only [S.handle] at e
      split at e
      · exact pend_groupFree _ _ _ _ e
      · cases e; rfl
    | connect mac prov pin call =>
      simp only [S.handle] at e
      split at e
      · cases e; exact Or.inl rfl
      · split at e
        · rcases pend_connect e with h1 | ⟨h1, h2 | h2⟩
          · exact Or.inl h1
          · rw [hq] at h2; cases h2
          · rw [hq] at h2; cases h2; exact Or.inr h1
        · cases e; exact Or.inl rfl
    | disconnect mac =>
      left
      simp only [S.handle] at e
      split at e
      · cases e; rfl
      · split at e
        · cases e
        · split at e
          · have := pend_dropGroup e; exact this
          · cases e; rfl
    | startScan => exact absurd trivial hn
    | attached => cases e; exact Or.inl rfl
    | ready =>
      left
      simp only [S.handle] at e
      split at e
      · cases e; rfl
      · have := pend_startedAll _ e; exact this
    | ownMac mac => cases e; exact Or.inl rfl
    | stopped => exact absurd trivial hn

/-- A history in which the attempt to connect to peer 0 succeeds: it ends up connected, with both addresses. -/
def success : List Op := base ++ [.connect mA (some (bytes "pbc")) none true, .groupStarted mA ifn false true true, line "L:192.168.49.10", line "G:192.168.49.1"]

example : ((start true).run success).map (fun s => ((s.pheap 0).map (·.connected), s.pending)) = some (some true, some 0) := by decide +kernel
-- then a request for peer 1 is refused
example : ((start true).run (success ++ [.connect mB (some (bytes "pbc")) none true])).map (fun s => s.log.getLast?) = some (some (.result (-114))) := by decide +kernel
-- after a new search it is not
example : ((start true).run (success ++ [.startScan, .connect mB (some (bytes "pbc")) none true])).map (fun s => (s.log.getLast?, s.pending)) = some (some (.result 0), some 1) := by decide +kernel
-- a pending peer is lost
example : ((start true).run (base ++ [.connect mA (some (bytes "pbc")) none true, .lost mA])).map (fun s => (s.pending, s.peers, s.log.drop 4)) =
    some (none, [1], [.failure 0, .removed 0]) := by decide +kernel

/-! ## C49: what D-Bus clients see -/

/-- **C49.** For every peer object, at any time: what was said about it makes sense (it appears once, disappears at most
once and after that is not mentioned; a connection state is announced only when it differs from the last one announced),
and what a client that followed it believes is the truth. -/
theorem signals_sound {zx : Bool} {ops : List Op} {s : S} (h : (start zx).run ops = some s) (p : Nat) :
    ∃ k, follows p .unseen s.log = some k ∧
      match s.pheap p with
      | some y => (y.shown = true → k = .here y.connected) ∧ (y.shown = false → k = .unseen)
      | none => k = .unseen ∨ k = .gone := by
  obtain ⟨k, a, b, _⟩ := (reached h).g.v p
  refine ⟨k, a, ?_⟩
  cases hp : s.pheap p with
  | none =>
    rw [hp] at b
    cases k with
    | unseen => exact Or.inl rfl
    | gone => exact Or.inr rfl
    | here c => exact absurd rfl (b c)
  | some y =>
    rw [hp] at b
    simp only [Fits] at b
    constructor
    · intro e; rw [b, if_pos e]
    · intro e; rw [b, e]; rfl

example : ((start true).run success).map (fun s => (follows 0 .unseen s.log, follows 1 .unseen s.log)) = some (some (.here true), some (.here false)) := by decide +kernel
example : ((start true).run (success ++ [.lost mA])).map (fun s => follows 0 .unseen s.log) = some (some .gone) := by decide +kernel

/-! ## C77: what "connected" means -/

/-- **C77 (partial: as long as owners stay in their groups).** A peer that is shown as connected is in a live group, and
its address and the local address are known. -/
theorem connected_linked_partial {zx : Bool} {ops : List Op} {s : S} (h : (start zx).run ops = some s) (ht : tidyRun (start zx) ops)
    {p : Nat} {y : Peer} (hp : s.pheap p = some y) (hc : y.connected = true) :
    y.remote ≠ none ∧ ∃ g x, y.g = some g ∧ g ∈ s.groups ∧ s.gheap g = some x ∧ x.localAddr ≠ none := by
  obtain ⟨a, g, x, b, c, d⟩ := run_CI ops (Inv.start zx) (by intro p y hy; cases hy) ht h p y hp hc
  exact ⟨a, g, x, b, ((reached h).g.i.gl g).mpr ⟨x, c⟩, c, d⟩

/-- The condition can be computed: it is enough to look at the groups that are in the list. -/
theorem tidy_compute {zx : Bool} {ops : List Op} {s : S} (h : (start zx).run ops = some s)
    (hb : s.groups.all (fun g => (s.gheap g).all (fun x => x.owner.all (fun p => (s.pheap p).any (fun y => y.g == some g)))) = true) : Tidy s := by
  intro g x p hx ho
  have := List.all_eq_true.mp hb g (((reached h).g.i.gl g).mpr ⟨x, hx⟩)
  rw [hx] at this
  simp only [Option.all_some, ho] at this
  cases hp : s.pheap p with
  | none => rw [hp] at this; cases this
  | some y => rw [hp] at this; exact ⟨y, rfl, by simpa using this⟩

theorem tidyRun_compute {zx : Bool} : ∀ (done ops : List Op) {s : S}, (start zx).run done = some s →
    (∀ n ≤ ops.length, ∀ s', s.run (ops.take n) = some s' →
      s'.groups.all (fun g => (s'.gheap g).all (fun x => x.owner.all (fun p => (s'.pheap p).any (fun y => y.g == some g)))) = true) → tidyRun s ops
  | _, [], s, h, hb => tidy_compute h (hb 0 (Nat.zero_le _) s rfl)
  | done, o :: t, s, h, hb => by
    refine ⟨tidy_compute h (hb 0 (Nat.zero_le _) s rfl), ?_⟩
    intro s1 e
    refine tidyRun_compute (done ++ [o]) t (by rw [run_append, h]; simp [S.run, e]) ?_
    intro n hn s' e'
    refine hb (n + 1) (by simpa using hn) s' ?_
    simp [S.run, e, e']

/-- Histories in which this device owns every group keep to the condition of the theorem above. -/
theorem local_tidy {s : S} (h : ∀ g x, s.gheap g = some x → x.owner = none) : Tidy s := by
  intro g x p hx ho
  rw [h g x hx] at ho; cases ho

-- the successful attempt is such a history, and its peer is connected
example : tidyRun (start true) success ∧ ((start true).run success).map (fun s => (s.pheap 0).map (·.connected)) = some (some true) := by
  refine ⟨tidyRun_compute [] success rfl ?_, by decide +kernel⟩
  have : ∀ n ∈ List.range (success.length + 1), ((start true).run (success.take n)).all (fun s' =>
      s'.groups.all (fun g => (s'.gheap g).all (fun x => x.owner.all (fun p => (s'.pheap p).any (fun y => y.g == some g))))) = true := by decide +kernel
  intro n hn s' e
  have := this n (List.mem_range.mpr (by omega))
  rw [e] at this
  exact this

-- C77 is refuted by a history in which the owner is told to disconnect: the group lives on, and the next lines of its
-- helper make the peer connected although it is in no group
example : ((start true).run (client ++ [.disconnect mA, line "L:192.168.49.10", line "G:192.168.49.1"])).map (fun s => (s.pheap 0).map (fun y => (y.connected, y.g))) =
    some (some (true, none)) := by decide +kernel
-- and it stays connected when the group is finally removed
example : ((start true).run (client ++ [.disconnect mA, line "L:192.168.49.10", line "G:192.168.49.1", .groupRemoved ifn])).map
    (fun s => (s.groups, (s.pheap 0).map (fun y => (y.connected, y.g)))) = some ([], some (true, none)) := by decide +kernel

/-! ## C44: the lines of the DHCP helper -/

/-- **C44 (packets).** A packet made of a letter, a colon and a text (of 1 … 509 bytes without NUL) is read as that
letter and that text, so different packets are read as different values. -/
theorem packet_reads (k : Byte) {t : List Byte} (h : Text t) : reads (k :: ch ':' :: t) = some (k, t) := reads_text k h

/-- **C44 (the packets of a lease).** What the helper writes for a lease with an address is read as its address, its
subnet mask (24 if there is none), its first DNS server and its first gateway, in this order. -/
theorem lease_reads {old : Option (List Byte)} {a : List Byte} {subnet dns gateway : List (List Byte)}
    (ha : Text a) (hs : ∀ t ∈ subnet, Text t) (hd : ∀ t ∈ dns, Text t) (hg : ∀ t ∈ gateway, Text t)
    (hnew : old ≠ some (a ++ ch '/' :: subnet.headD (bytes "24"))) :
    (clientLease old (some a) subnet dns gateway true true).2.1.map reads =
      [some (ch 'L', a), some (ch 'S', subnet.headD (bytes "24"))] ++ dns.head?.toList.map (fun d => some (ch 'D', d)) ++ gateway.head?.toList.map (fun d => some (ch 'G', d)) := by
  have hm : Text (subnet.headD (bytes "24")) := by
    cases subnet with
    | nil => exact ⟨by decide, by decide, by decide⟩
    | cons m t => exact hs m List.mem_cons_self
  unfold clientLease
  simp only [if_neg hnew]
  rw [if_neg (by simp)]
  simp only [List.map_append, List.map_cons, List.map_nil, List.map_map]
  rw [reads_text _ ha, reads_text _ hm]
  congr 1
  · congr 1
    cases dns with
    | nil => rfl
    | cons d t => simp [reads_text _ (hd d List.mem_cons_self)]
  · cases gateway with
    | nil => rfl
    | cons d t => simp [reads_text _ (hg d List.mem_cons_self)]

/-- **C44 (local address).** An `L` line stores its text as the local address of the group and changes no other address. -/
theorem local_line {zx : Bool} {ops : List Op} {s s' : S} (h : (start zx).run ops = some s) {g : Nat} {x : Grp} (hx : s.gheap g = some x)
    {t : List Byte} (ht : Text t) {m : Bool} (e : s.step (.comm g (.line (serverReady t)) true m) = some s') :
    s'.gheap g = some { x with localAddr := some t } ∧ (∀ k, k ≠ g → s'.gheap k = s.gheap k) ∧ ∀ q, (s'.pheap q).map forget = (s.pheap q).map forget := by
  obtain ⟨a, b⟩ := line_L (((reached h).g.i.gl g).mpr ⟨x, hx⟩) hx (reads_text _ ht) e
  exact ⟨by rw [a]; exact upd_same _ _ _, fun k hk => by rw [a]; exact upd_ne _ _ hk, b⟩

/-- **C44 (gateway).** A `G` line stores its text as the address of the group's owner and changes no other address. -/
theorem gateway_line {zx : Bool} {ops : List Op} {s s' : S} (h : (start zx).run ops = some s) {g p : Nat} {x : Grp} {y : Peer} (hx : s.gheap g = some x)
    (ho : x.owner = some p) (hp : s.pheap p = some y) {t : List Byte} (ht : Text t) {m : Bool}
    (e : s.step (.comm g (.line (ch 'G' :: ch ':' :: t)) true m) = some s') :
    s'.gheap = s.gheap ∧ (s'.pheap p).map forget = some (forget { y with remote := some t }) ∧ ∀ q, q ≠ p → (s'.pheap q).map forget = (s.pheap q).map forget :=
  line_G (((reached h).g.i.gl g).mpr ⟨x, hx⟩) hx ho hp (reads_text _ ht) e

/-- **C44 (a lease).** If a peer owns the group and the helper obtains a new lease with a gateway, then after its lines
were read the local address is the leased one, the address of the owner is the first gateway, and the owner is
connected. -/
theorem lease_connects {zx : Bool} {ops : List Op} {s : S} (h : (start zx).run ops = some s) {g p : Nat} {x : Grp} {y : Peer} (hx : s.gheap g = some x)
    (ho : x.owner = some p) (hp : s.pheap p = some y) {old : Option (List Byte)} {a gw : List Byte} {subnet dns gateway : List (List Byte)}
    (ha : Text a) (hs : ∀ t ∈ subnet, Text t) (hd : ∀ t ∈ dns, Text t) (hg : Text gw)
    (hnew : old ≠ some (a ++ ch '/' :: subnet.headD (bytes "24"))) :
    ∃ s' x' y', s.run ((clientLease old (some a) subnet dns (gw :: gateway) true true).2.1.map (fun l => .comm g (.line l) true true)) = some s' ∧
      s'.gheap g = some x' ∧ x'.localAddr = some a ∧ s'.pheap p = some y' ∧ y'.remote = some gw ∧ y'.connected = true := by
  have hm : Text (subnet.headD (bytes "24")) := by
    cases subnet with
    | nil => exact ⟨by decide, by decide, by decide⟩
    | cons m t => exact hs m List.mem_cons_self
  obtain ⟨s1, e1, a1⟩ := addrs_line (reached h) hx ho hp rfl rfl (ch 'L') ha (by decide)
  obtain ⟨s2, e2, a2⟩ := a1.line (ch 'S') hm (by decide)
  have fin : ∀ s3, Addrs s3 g p (some a) y.remote → ∃ s' x' y', s3.run [.comm g (.line (ch 'G' :: ch ':' :: gw)) true true] = some s' ∧
      s'.gheap g = some x' ∧ x'.localAddr = some a ∧ s'.pheap p = some y' ∧ y'.remote = some gw ∧ y'.connected = true := by
    intro s3 a3
    obtain ⟨s4, e4, _, x', y', b, _, c, d, f, m⟩ := a3.line (ch 'G') hg (by decide)
    rw [if_neg (by decide)] at d m
    rw [if_pos rfl] at f m
    exact ⟨s4, x', y', by simp [S.run, e4], b, d, c, f, m (by simp) (by simp)⟩
  rw [if_neg (by decide), if_pos rfl, if_neg (by decide), if_neg (by decide)] at a2
  unfold clientLease
  simp only [if_neg hnew]
  rw [if_neg (by simp)]
  generalize subnet.headD (bytes "24") = m at *
  cases dns with
  | nil =>
    obtain ⟨s', x', y', e, r⟩ := fin s2 a2
    exact ⟨s', x', y', by simpa [S.run, e1, e2] using e, r⟩
  | cons d dt =>
    obtain ⟨s3, e3, a3⟩ := a2.line (ch 'D') (hd d List.mem_cons_self) (by decide)
    rw [if_neg (by decide), if_neg (by decide)] at a3
    obtain ⟨s', x', y', e, r⟩ := fin s3 a3
    exact ⟨s', x', y', by simpa [S.run, e1, e2, e3] using e, r⟩

/-- **C44 (leases of a server).** The line for a lease given to the MAC address `bs`, written with one or two digits
per byte (as `ether_ntoa` does) in either case, stores the leased address with the one peer that has this MAC address as
device or interface address, and changes no other address. -/
theorem remote_line {zx : Bool} {ops : List Op} {s s' : S} (h : (start zx).run ops = some s) {g p : Nat} {x : Grp} {y : Peer} (hx : s.gheap g = some x)
    (hp : s.pheap p = some y) {bs ip : List Byte} {fs : List (List Byte)} (hb : bs.length = 6) (hw : Mac.Spec.WritesAll fs bs)
    (hm : y.mac = Mac.format bs ∨ y.sta = some (Mac.format bs))
    (hu : ∀ q z, s.pheap q = some z → (z.mac = Mac.format bs ∨ z.sta = some (Mac.format bs)) → q = p)
    (hi : ip ≠ []) (ht : Text (Mac.Spec.join fs ++ ch ' ' :: ip))
    (e : s.step (.comm g (.line (serverEvent (Mac.Spec.join fs) ip)) true true) = some s') :
    s'.gheap = s.gheap ∧ (s'.pheap p).map forget = some (forget { y with remote := some ip }) ∧ ∀ q, q ≠ p → (s'.pheap q).map forget = (s.pheap q).map forget := by
  have hg := (reached h).g
  have hlen : fs.length = 6 := by
    have : ∀ fs bs, Mac.Spec.WritesAll fs bs → fs.length = bs.length := by
      intro fs bs h; induction h with
      | nil => rfl
      | cons _ _ ih => simp [ih]
    rw [this fs bs hw, hb]
  have hn : s.norm (Mac.Spec.join fs) = Mac.format bs := by
    unfold S.norm
    rw [← hlen, Mac.scan_join s.zx fs bs hw]
  obtain ⟨hne, hsp⟩ := join_text hw (by omega)
  refine line_R ((hg.i.gl g).mpr ⟨x, hx⟩) hx hp (reads_text _ ht) hsp hne hi ?_ e
  rw [hn]
  exact findAny_unique hg hp hm hu

/-- **C44 (partial: other lines).** A line that is no packet of a letter and a text, or has another letter, changes no
address. Missing: it can announce a peer as connected if the addresses are already there (see the example). -/
theorem other_line_partial {zx : Bool} {ops : List Op} {s s' : S} (h : (start zx).run ops = some s) {g : Nat} {x : Grp} (hx : s.gheap g = some x)
    {l : List Byte} (hr : ∀ k t, reads l = some (k, t) → k ≠ ch 'L' ∧ k ≠ ch 'G' ∧ k ≠ ch 'R') {m1 m2 : Bool}
    (e : s.step (.comm g (.line l) m1 m2) = some s') :
    s'.gheap = s.gheap ∧ ∀ q, (s'.pheap q).map forget = (s.pheap q).map forget :=
  line_other (((reached h).g.i.gl g).mpr ⟨x, hx⟩) hx hr e

/-- **C44 (lines are safe).** A line is handled without undefined behaviour as long as the owner of the group, if it has
one, is still there. -/
theorem line_safe {zx : Bool} {ops : List Op} {s : S} (h : (start zx).run ops = some s) {g : Nat} {x : Grp} (hx : s.gheap g = some x)
    (ho : ∀ p, x.owner = some p → ∃ y, s.pheap p = some y) (l : List Byte) (m1 m2 : Bool) : (s.step (.comm g (.line l) m1 m2)).isSome = true := by
  obtain ⟨s', e, _⟩ := line_defined (reached h) hx ho l m1 m2
  rw [e]; rfl

example : ((start true).run (server ++ [.comm 2 (.line (serverReady (bytes "192.168.50.1"))) true true, .comm 2 (.line (serverEvent (bytes "2:0:0:0:0:a") (bytes "192.168.50.100"))) true true])).map
    (fun s => ((s.gheap 2).map (·.localAddr), (s.pheap 0).map (fun y => (y.remote, y.connected)))) =
    some (some (some (bytes "192.168.50.1")), some (some (bytes "192.168.50.100"), true)) := by decide +kernel
example : (clientLease none (some (bytes "192.168.49.10")) [bytes "255.255.255.0"] [] [bytes "192.168.49.1"] true true).2.1 =
    [bytes "L:192.168.49.10", bytes "S:255.255.255.0", bytes "G:192.168.49.1"] := by decide +kernel
-- an unknown line that has an effect: the lease of peer 0 came over the socket of another group
example : ((start true).run (server ++ [.groupStarted own (bytes "p2p1") true true true, line "L:192.168.50.1", .comm 3 (.line (bytes "R:2:0:0:0:0:a 192.168.51.100")) true true])).map
      (fun s => (s.pheap 0).map (·.connected)) = some (some false) ∧
    ((start true).run (server ++ [.groupStarted own (bytes "p2p1") true true true, line "L:192.168.50.1", .comm 3 (.line (bytes "R:2:0:0:0:0:a 192.168.51.100")) true true, line "X:y"])).map
      (fun s => (s.pheap 0).map (·.connected)) = some (some true) := by decide +kernel

end Verif.P2p
