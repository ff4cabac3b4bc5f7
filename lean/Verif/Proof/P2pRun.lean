import Verif.Proof.P2pStep
/-! The invariant holds in every reachable state, and exactly two kinds of events are undefined. -/
namespace Verif.P2p
open Verif.C Spec

theorem Good.bump {s : S} (h : Good s) {t : List Out} (ht : quiet t) (ht1 : ∀ g, g ≠ s.next → ∀ k, tends g k t = some k)
    (ht2 : ∃ k, tends s.next .never t = some k ∧ ∀ n, k ≠ .up n) : Good { s with next := s.next + 1, log := s.log ++ t } := by
  refine ⟨⟨h.i.pn, h.i.pl, ?_, h.i.gn, h.i.gl, ?_, h.i.pg, h.i.pe, h.i.mac, h.i.inj, h.i.sub, h.i.dis⟩, h.c, h.v.congr t ht rfl rfl (Nat.le_succ _), ?_⟩
  · intro p y hp; exact Nat.lt_succ_of_lt (h.i.pf p y hp)
  · intro p y hp; exact Nat.lt_succ_of_lt (h.i.gf p y hp)
  · intro g
    obtain ⟨k, h1, h2, h3⟩ := h.w g
    show ∃ k, tends g .never (s.log ++ t) = some k ∧ Keeps k (s.gheap g) ∧ (s.next + 1 ≤ g → k = .never)
    rw [tends_append, h1]
    by_cases e : g = s.next
    · subst e
      obtain ⟨k', h4, h5⟩ := ht2
      rw [h3 (Nat.le_refl _)]
      refine ⟨k', h4, ?_, by intro h6; omega⟩
      cases hg : s.gheap s.next with
      | none => exact h5
      | some x => have := h.i.gf _ _ hg; omega
    · exact ⟨k, ht1 g e k, h2, fun h6 => h3 (by omega)⟩

theorem Good.fresh {s : S} (h : Good s) : s.gheap s.next = none := by
  cases e : s.gheap s.next with
  | none => rfl
  | some y => have := h.i.gf _ _ e; omega

theorem freeSubnet_zero {s : S} (h : s.freeSubnet = 0) : ∀ n, 50 ≤ n → n < 256 → ∃ g ∈ s.groups, ∃ x, s.gheap g = some x ∧ x.subnet = n := by
  intro n h1 h2
  unfold S.freeSubnet at h
  cases hf : (List.range' 50 206).find? (fun n => s.groups.all (fun g => (s.gheap g).all (fun x => decide (x.subnet ≠ n)))) with
  | some m =>
    rw [hf] at h
    have := List.mem_of_find?_eq_some hf
    simp [List.mem_range'] at this
    simp at h
    omega
  | none =>
    rw [List.find?_eq_none] at hf
    have := hf n (by simp only [List.mem_range']; exact ⟨n - 50, by omega, by omega⟩)
    simp only [List.all_eq_true, Bool.not_eq_true] at this
    by_contra hc
    apply this
    intro g hg
    cases e : s.gheap g with
    | none => rfl
    | some x =>
      simp only [Option.all_some, decide_eq_true_eq]
      intro hx
      exact hc ⟨g, hg, x, e, hx⟩

theorem freeSubnet_some {s : S} (h : s.freeSubnet ≠ 0) : 50 ≤ s.freeSubnet ∧ s.freeSubnet < 256 ∧ ∀ g ∈ s.groups, ∀ x, s.gheap g = some x → x.subnet ≠ s.freeSubnet := by
  have e : s.freeSubnet = ((List.range' 50 206).find? (fun n => s.groups.all (fun g => (s.gheap g).all (fun x => decide (x.subnet ≠ n))))).getD 0 := rfl
  generalize s.freeSubnet = m at *
  cases hf : (List.range' 50 206).find? (fun n => s.groups.all (fun g => (s.gheap g).all (fun x => decide (x.subnet ≠ n)))) with
  | none => rw [hf] at e; exact absurd e h
  | some k =>
    rw [hf] at e
    simp only [Option.getD_some] at e
    subst e
    have h1 := List.mem_of_find?_eq_some hf
    have h2 := List.find?_some hf
    simp [List.mem_range'] at h1
    refine ⟨by omega, by omega, ?_⟩
    intro g hg x hx
    simp only [List.all_eq_true] at h2
    have := h2 g hg
    rw [hx] at this
    simpa using this

/-- Freeing a group that was never linked only leaves traces in the history. -/
theorem freed_fresh {s : S} (h : Good s) (x : Grp) (t : List Out) (hu : x.users = 0) :
    S.groupFree depth ({ s with next := s.next + 1, gheap := upd s.gheap s.next (some x), log := s.log ++ t }) s.next =
      some { s with next := s.next + 1, log := s.log ++ (t ++ ((if s.bus then [.groupRemove x.ifname] else []) ++ (if x.dhcp then [.dhcpKill s.next] else []))) } := by
  rw [show depth = 1 + 1 from rfl, groupFree_ok 1 (s := { s with next := s.next + 1, gheap := upd s.gheap s.next (some x), log := s.log ++ t }) (x := x)
    (fun p hp => (h.i.pl p).mp hp) h.i.pn (upd_same _ _ _) (Or.inr hu)]
  unfold S.freed
  rw [detachAll_none]
  · have hg : s.next ∉ s.groups := by
      intro e; obtain ⟨z, hz⟩ := (h.i.gl _).mp e; rw [h.fresh] at hz; cases hz
    simp only [S.killed, upd_upd, List.erase_of_not_mem hg, List.append_assoc]
    rw [← h.fresh, upd_self]
  · intro p _ y hy hyg
    obtain ⟨z, hz⟩ := h.i.pg p y _ hy hyg
    rw [h.fresh] at hz; cases hz

/-- What `supplicant_group_new` does. -/
theorem groupNew_case {s : S} (h : Good s) (i : List Byte) (go spawn watch : Bool) :
    (∃ t, quiet t ∧ ((∀ g, g ≠ s.next → ∀ k, tends g k t = some k) ∧ ∃ k, tends s.next .never t = some k ∧ ∀ n, k ≠ .up n) ∧ s.groupNew i go spawn watch = some ({ s with next := s.next + 1, log := s.log ++ t }, none) ∧
      (spawn = false ∨ watch = false ∨ (go = true ∧ s.freeSubnet = 0))) ∨
    (spawn = true ∧ watch = true ∧ (go = true → s.freeSubnet ≠ 0) ∧
      s.groupNew i go spawn watch = some ({ s with next := s.next + 1, gheap := upd s.gheap s.next (some { users := 0, owner := none, go := go, subnet := if go then s.freeSubnet else 0, ifname := i, localAddr := none, dhcp := true }), groups := s.next :: s.groups, log := s.log ++ [if go then .dhcpServer s.next s.freeSubnet else .dhcpClient s.next] }, some s.next)) := by
  unfold S.groupNew
  simp only []
  by_cases hc : spawn = false ∨ (go = true ∧ (if go then s.freeSubnet else 0) = 0)
  · left
    rw [if_pos hc]
    have := freed_fresh h { users := 0, owner := none, go := go, subnet := if go then s.freeSubnet else 0, ifname := i, localAddr := none, dhcp := false } [] rfl
    simp only [List.append_nil] at this
    refine ⟨_, ?_, ?_, by show Option.map _ (S.groupFree depth _ _) = _; rw [S.setGrp]; rw [this]; rfl, ?_⟩
    · exact quiet_app quiet_nil (quiet_app (quiet_if (quiet_remove _)) (quiet_if (quiet_kill _)))
    · have hm : mute ([] ++ ((if s.bus then [.groupRemove i] else []) ++ (if false = true then [.dhcpKill s.next] else []))) :=
        mute_app mute_nil (mute_app (mute_if (mute_one (fun _ _ => rfl))) mute_nil)
      exact ⟨fun g _ k => hm g k, .never, hm _ _, by simp⟩
    · rcases hc with hc | ⟨h1, h2⟩
      · exact Or.inl hc
      · rw [if_pos h1] at h2; exact Or.inr (Or.inr ⟨h1, h2⟩)
  · rw [if_neg hc]
    have hsp : spawn = true := by cases spawn <;> simp_all
    have hgo : go = true → s.freeSubnet ≠ 0 := by
      intro e h0; exact hc (Or.inr ⟨e, by rw [if_pos e]; exact h0⟩)
    cases watch with
    | false =>
      left
      simp only [if_true]
      have := freed_fresh h { users := 0, owner := none, go := go, subnet := if go then s.freeSubnet else 0, ifname := i, localAddr := none, dhcp := true }
        [if go then .dhcpServer s.next (if go then s.freeSubnet else 0) else .dhcpClient s.next] rfl
      refine ⟨_, ?_, ?_, by show Option.map _ (S.groupFree depth _ _) = _; rw [S.setGrp, S.emit]; rw [this]; rfl, by simp⟩
      · refine quiet_app ?_ (quiet_app (quiet_if (quiet_remove _)) (quiet_if (quiet_kill _)))
        cases go
        · exact quiet_client _
        · exact quiet_server _ _
      · constructor
        · intro g hg k
          cases go <;> cases s.bus <;> simp [tends, tend, Ne.symm hg]
        · exact ⟨.down, by cases go <;> cases s.bus <;> simp [tends, tend], by simp⟩
    | true =>
      right
      refine ⟨hsp, rfl, hgo, ?_⟩
      simp only [Bool.true_eq_false, if_false, S.setGrp, S.emit]
      cases go <;> rfl

theorem Good.groupLinked {s : S} (h : Good s) {x : Grp} {t : List Out} (ht : quiet t) (ht1 : ∀ g, g ≠ s.next → ∀ k, tends g k t = some k)
    (ht2 : tends s.next .never t = some (.up x.subnet)) (hdh : x.dhcp = true) (hu : x.users = 0)
    (hs : (x.go = true → 50 ≤ x.subnet ∧ x.subnet < 256) ∧ (x.go = false → x.subnet = 0))
    (hd : x.subnet ≠ 0 → ∀ g z, s.gheap g = some z → z.subnet ≠ x.subnet) :
    Good { s with next := s.next + 1, gheap := upd s.gheap s.next (some x), groups := s.next :: s.groups, log := s.log ++ t } := by
  have hf := h.fresh
  have hnot : s.next ∉ s.groups := by
    intro e; obtain ⟨z, hz⟩ := (h.i.gl _).mp e; rw [hf] at hz; cases hz
  have key : ∀ q z, upd s.gheap s.next (some x) q = some z → (q = s.next ∧ z = x) ∨ (q ≠ s.next ∧ s.gheap q = some z) := by
    intro q z hz
    by_cases e : q = s.next
    · subst e; rw [upd_same] at hz; cases hz; exact Or.inl ⟨rfl, rfl⟩
    · rw [upd_ne _ _ e] at hz; exact Or.inr ⟨e, hz⟩
  have hnog : ∀ p y, s.pheap p = some y → y.g ≠ some s.next := by
    intro p y hp hy
    obtain ⟨z, hz⟩ := h.i.pg p y _ hp hy
    rw [hf] at hz; cases hz
  refine ⟨⟨h.i.pn, h.i.pl, ?_, ?_, ?_, ?_, ?_, h.i.pe, h.i.mac, h.i.inj, ?_, ?_⟩, ?_, h.v.congr t ht rfl rfl (Nat.le_succ _), ?_⟩
  · intro p y hp; exact Nat.lt_succ_of_lt (h.i.pf p y hp)
  · exact List.nodup_cons.mpr ⟨hnot, h.i.gn⟩
  · intro q
    rw [List.mem_cons]
    constructor
    · rintro (e | e)
      · subst e; exact ⟨x, upd_same _ _ _⟩
      · obtain ⟨z, hz⟩ := (h.i.gl q).mp e
        exact ⟨z, (upd_ne _ _ (by rintro rfl; exact hnot e)).trans hz⟩
    · rintro ⟨z, hz⟩
      rcases key q z hz with ⟨e, _⟩ | ⟨_, e⟩
      · exact Or.inl e
      · exact Or.inr ((h.i.gl q).mpr ⟨z, e⟩)
  · intro q z hz
    rcases key q z hz with ⟨e, _⟩ | ⟨_, e⟩
    · show q < s.next + 1; omega
    · exact Nat.lt_succ_of_lt (h.i.gf q z e)
  · intro q z k hz hk
    obtain ⟨w, hw⟩ := h.i.pg q z k hz hk
    exact ⟨w, (upd_ne _ _ (by rintro rfl; exact hnog q z hz hk)).trans hw⟩
  · intro q z hz
    rcases key q z hz with ⟨_, e⟩ | ⟨_, e⟩
    · rw [e]; exact hs
    · exact h.i.sub q z e
  · intro q r z w hz hw he h0
    rcases key q z hz with ⟨a, e⟩ | ⟨a, e⟩ <;> rcases key r w hw with ⟨b, f⟩ | ⟨b, f⟩
    · rw [a, b]
    · rw [e] at he h0; exact absurd he.symm (hd h0 r w f)
    · rw [f] at he; exact absurd he (hd (by rw [← he]; exact h0) q z e)
    · exact h.i.dis q r z w e f he h0
  · intro k z hz
    rcases key k z hz with ⟨a, e⟩ | ⟨a, e⟩
    · subst e; subst a
      have hm : memc s s.next = 0 := by
        unfold memc
        rw [List.countP_eq_zero]
        intro q _
        unfold inG
        cases hq : s.pheap q with
        | none => simp
        | some y => simp [hnog q y hq]
      show memc s s.next ≤ z.users ∧ (z.owner = none → z.users = memc s s.next)
      rw [hm, hu]
      exact ⟨Nat.le_refl _, fun _ => rfl⟩
    · exact h.c k z e
  · intro g
    obtain ⟨k, h1, h2, h3⟩ := h.w g
    show ∃ k, tends g .never (s.log ++ t) = some k ∧ Keeps k (upd s.gheap s.next (some x) g) ∧ (s.next + 1 ≤ g → k = .never)
    rw [tends_append, h1]
    by_cases e : g = s.next
    · subst e
      rw [h3 (Nat.le_refl _), upd_same]
      exact ⟨_, ht2, ⟨hdh, rfl⟩, by intro h6; omega⟩
    · rw [upd_ne _ _ e]
      exact ⟨k, ht1 g e k, h2, fun h6 => h3 (by omega)⟩

theorem Good.groupNew {s : S} (h : Good s) (i : List Byte) (go spawn watch : Bool) :
    ∃ s' r, s.groupNew i go spawn watch = some (s', r) ∧ Good s' ∧ s'.bus = s.bus ∧ s'.running = s.running ∧ s'.pheap = s.pheap ∧ s'.peers = s.peers ∧ s'.pending = s.pending ∧
      (∀ g, r = some g → ∃ x, s'.gheap g = some x) := by
  rcases groupNew_case h i go spawn watch with ⟨t, ht, ⟨ht1, ht2⟩, e, _⟩ | ⟨_, _, hgo, e⟩
  · exact ⟨_, _, e, h.bump ht ht1 ht2, rfl, rfl, rfl, rfl, rfl, by simp⟩
  · refine ⟨_, _, e, ?_, rfl, rfl, rfl, rfl, rfl, ?_⟩
    · refine h.groupLinked ?_ ?_ ?_ rfl rfl ?_ ?_
      · cases go
        · exact quiet_client _
        · exact quiet_server _ _
      · intro g hg k
        cases go <;> simp [tends, tend, Ne.symm hg]
      · cases go <;> simp [tends, tend]
      · constructor
        · intro hg
          have hg : go = true := hg
          obtain ⟨a, b, _⟩ := freeSubnet_some (hgo hg)
          simp only [if_pos hg]
          exact ⟨a, b⟩
        · intro hg
          have hg : go = false := hg
          simp [hg]
      · intro h0 g z hz
        cases hg : go with
        | false => rw [hg] at h0; exact absurd rfl h0
        | true =>
          simp only [if_true]
          exact (freeSubnet_some (hgo hg)).2.2 g ((h.i.gl g).mpr ⟨z, hz⟩) z hz
    · intro g hg
      cases hg
      exact ⟨_, upd_same _ _ _⟩

theorem Good.parsePeer {s : S} (h : Good s) (mac : List Byte) (order : List Nat) :
    ∃ s', s.parsePeer mac order = some s' ∧ Good s' ∧ s'.bus = s.bus ∧ s'.running = s.running := by
  unfold S.parsePeer
  have hn := h.peerNew mac order
  cases hf : s.findPeer mac with
  | some p =>
    simp only []
    obtain ⟨_, y, hy, _⟩ := findPeer_some hf
    cases hr : s.running with
    | false => simp only [Bool.false_eq_true, if_false]; exact ⟨s, rfl, h, rfl, hr⟩
    | true =>
      simp only [if_true]
      obtain ⟨s', e, g, f⟩ := h.started hy
      exact ⟨s', e, g, f.bus, f.running.trans hr⟩
  | none =>
    simp only []
    obtain ⟨hg, hp, hb, hr⟩ := hn
    cases e : s.peerNew mac order with
    | mk s1 r =>
      rw [e] at hg hp hb hr
      cases r with
      | none => exact ⟨s1, rfl, hg, hb, hr⟩
      | some p =>
        simp only []
        obtain ⟨y, hy⟩ := hp p rfl
        by_cases hr1 : s1.running = true
        · rw [if_pos hr1]
          obtain ⟨s', e, g, f⟩ := hg.started hy
          exact ⟨s', e, g, f.bus.trans hb, f.running.trans hr⟩
        · rw [if_neg hr1]
          exact ⟨s1, rfl, hg, hb, hr⟩

theorem Good.tell (g : Nat) : ∀ (l : List Nat) {s : S}, Good s → (∀ p ∈ l, ∃ y, s.pheap p = some y) →
    ∃ s', s.tell g l = some s' ∧ Good s' ∧ s'.bus = s.bus ∧ s'.running = s.running ∧ s'.peers = s.peers ∧ s'.groups = s.groups
  | [], s, h, _ => ⟨s, rfl, h, rfl, rfl, rfl, rfl⟩
  | p :: t, s, h, hl => by
    obtain ⟨y, hy⟩ := hl p List.mem_cons_self
    unfold S.tell
    simp only [hy]
    split
    · exact Good.tell g t h (fun q hq => hl q (List.mem_cons_of_mem _ hq))
    · obtain ⟨e, h1⟩ := h.connectedChanged hy true
      simp only [e]
      obtain ⟨s', a, b, c, d, f, k⟩ := Good.tell g t h1 (by
        intro q hq
        by_cases hqp : q = p
        · subst hqp; exact ⟨_, upd_same _ _ _⟩
        · obtain ⟨z, hz⟩ := hl q (List.mem_cons_of_mem _ hq)
          exact ⟨z, (upd_ne _ _ hqp).trans hz⟩)
      exact ⟨s', a, b, c, d, f, k⟩

theorem Good.announce {s : S} (h : Good s) {g : Nat} {x : Grp} (hx : s.gheap g = some x)
    (ho : x.localAddr = none ∨ ∀ p, x.owner = some p → ∃ y, s.pheap p = some y) :
    ∃ s', s.announce g = some s' ∧ Good s' ∧ s'.bus = s.bus ∧ s'.running = s.running ∧ s'.peers = s.peers ∧ s'.groups = s.groups := by
  unfold S.announce
  simp only [hx]
  by_cases hl : x.localAddr = none
  · rw [if_pos hl]; exact ⟨s, rfl, h, rfl, rfl, rfl, rfl⟩
  · rw [if_neg hl]
    have ho : ∀ p, x.owner = some p → ∃ y, s.pheap p = some y := by
      rcases ho with ho | ho
      · exact absurd ho hl
      · exact ho
    cases hw : x.owner with
    | none => exact Good.tell g s.peers h h.live
    | some p =>
      obtain ⟨y, hy⟩ := ho p hw
      simp only [hy]
      split
      · exact ⟨s, rfl, h, rfl, rfl, rfl, rfl⟩
      · obtain ⟨e, h1⟩ := h.connectedChanged hy true
        exact ⟨_, e, h1, rfl, rfl, rfl, rfl⟩

theorem announce_ub {s : S} {g p : Nat} {x : Grp} (hx : s.gheap g = some x) (hl : x.localAddr ≠ none) (ho : x.owner = some p)
    (hp : s.pheap p = none) : s.announce g = none := by
  unfold S.announce
  simp [hx, hl, ho, hp]

theorem comm_line (s : S) {g : Nat} {x : Grp} (hx : s.gheap g = some x) (l : List Byte) (mem1 mem2 : Bool) :
    s.comm g (.line l) mem1 mem2 = match reads l with
      | none => some s
      | some (k, t) => if mem1 = false then some s else (s.applyLine g x k t mem2).bind (fun s => s.announce g) := by
  unfold S.comm
  simp only [hx]
  match l with
  | [] => simp [reads]
  | [a] => simp [reads]
  | k :: c :: t =>
    have e1 : (k :: c :: t).take 511 = k :: c :: t.take 509 := rfl
    have e2 : ((k :: c :: t.take 509).drop 2).takeWhile (fun x => decide (x ≠ 0)) = cut (t.take 509) := rfl
    have e3 : ((k :: c :: t.take 509)[1]? ≠ some (ch ':')) ↔ c ≠ ch ':' := by simp
    have e4 : (k :: c :: t.take 509).headD 0 = k := rfl
    rw [e1]
    simp only [e2, e3, e4]
    by_cases hc : c = ch ':' ∧ cut (t.take 509) ≠ []
    · have hne : t.take 509 ≠ [] := by intro e; rw [e] at hc; exact hc.2 rfl
      have hlen : ¬ (k :: c :: t.take 509).length < 3 := by
        have : 0 < (t.take 509).length := List.length_pos_iff.mpr hne
        simp only [List.length_cons]
        omega
      rw [if_neg (by rintro (a | a | a); exact hlen a; exact a hc.1; exact hc.2 a)]
      simp only [reads, if_pos hc]
    · rw [if_pos (by
        by_cases h1 : c = ch ':'
        · by_cases h2 : cut (t.take 509) = []
          · exact Or.inr (Or.inr h2)
          · exact absurd ⟨h1, h2⟩ hc
        · exact Or.inr (Or.inl h1))]
      simp only [reads, if_neg hc]

theorem findAny_some {s : S} {mac : List Byte} {p : Nat} (h : s.findAny mac = some p) : p ∈ s.peers ∧ ∃ y, s.pheap p = some y ∧ (y.mac = mac ∨ y.sta = some mac) := by
  unfold S.findAny at h
  have h1 := List.mem_of_find?_eq_some h
  have h2 := List.find?_some h
  refine ⟨h1, ?_⟩
  cases hp : s.pheap p with
  | none => simp [hp] at h2
  | some y => exact ⟨y, rfl, by simpa [hp] using h2⟩

/-- Storing the value of a line. -/
theorem Good.applyLine {s : S} (h : Good s) {g : Nat} {x : Grp} (hx : s.gheap g = some x) (k : Byte) (t : List Byte) (mem : Bool) :
    (k = ch 'G' ∧ (∃ p, x.owner = some p ∧ s.pheap p = none) ∧ s.applyLine g x k t mem = none) ∨
    ((k = ch 'G' → ∀ p, x.owner = some p → ∃ y, s.pheap p = some y) ∧ ∃ s', s.applyLine g x k t mem = some s' ∧ Good s' ∧ s'.bus = s.bus ∧ s'.running = s.running ∧ s'.peers = s.peers ∧ s'.groups = s.groups ∧
      s'.gheap g = some { x with localAddr := if k = ch 'L' then some t else x.localAddr } ∧ (∀ p, (∃ y, s.pheap p = some y) ↔ ∃ y, s'.pheap p = some y)) := by
  have hset : ∀ p y r, s.pheap p = some y → Good (s.setPeer p { y with remote := some r }) ∧
      (∀ q, (∃ z, s.pheap q = some z) ↔ ∃ z, (s.setPeer p { y with remote := some r }).pheap q = some z) := by
    intro p y r hy
    refine ⟨h.setPeer hy rfl rfl rfl rfl, ?_⟩
    intro q
    by_cases e : q = p
    · subst e; simp [S.setPeer, upd_same, hy]
    · simp [S.setPeer, upd_ne _ _ e]
  unfold S.applyLine
  by_cases hL : k = ch 'L'
  · right
    rw [if_pos hL]
    have hLG : (ch 'L' : Byte) ≠ ch 'G' := by decide
    refine ⟨by rw [hL]; intro e; exact absurd e hLG, _, rfl, h.setGrp hx rfl (fun e => e) rfl rfl rfl, rfl, rfl, rfl, rfl, ?_, fun _ => Iff.rfl⟩
    simp [S.setGrp, upd_same, hL]
  · rw [if_neg hL]
    simp only [if_neg hL]
    have hsame : s.gheap g = some { x with localAddr := x.localAddr } := hx
    by_cases hG : k = ch 'G'
    · rw [if_pos hG]
      cases ho : x.owner with
      | none => right; exact ⟨by simp, s, rfl, h, rfl, rfl, rfl, rfl, hsame.trans (by rw [← ho]), fun _ => Iff.rfl⟩
      | some p =>
        cases hp : s.pheap p with
        | none => left; exact ⟨hG, ⟨p, rfl, hp⟩, by simp only [hp]⟩
        | some y =>
          right
          simp only [hp]
          obtain ⟨h1, h2⟩ := hset p y t hp
          exact ⟨by intro _ q hq; cases hq; exact ⟨y, hp⟩, _, rfl, h1, rfl, rfl, rfl, rfl, hsame.trans (by rw [← ho]), h2⟩
    · rw [if_neg hG]
      right
      refine ⟨fun e => absurd e hG, ?_⟩
      by_cases hR : k = ch 'R'
      · rw [if_pos hR]
        split
        · exact ⟨s, rfl, h, rfl, rfl, rfl, rfl, hsame, fun _ => Iff.rfl⟩
        · split
          · exact ⟨s, rfl, h, rfl, rfl, rfl, rfl, hsame, fun _ => Iff.rfl⟩
          · rename_i p hf
            obtain ⟨_, y, hy, _⟩ := findAny_some hf
            split
            · exact ⟨s, rfl, h, rfl, rfl, rfl, rfl, hsame, fun _ => Iff.rfl⟩
            · simp only [hy]
              obtain ⟨h1, h2⟩ := hset p y _ hy
              exact ⟨_, rfl, h1, rfl, rfl, rfl, rfl, hsame, h2⟩
      · rw [if_neg hR]
        exact ⟨s, rfl, h, rfl, rfl, rfl, rfl, hsame, fun _ => Iff.rfl⟩

end Verif.P2p
