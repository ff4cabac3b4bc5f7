import Verif.Proof.BusRun
/-! # Helper lemmas: taking over the list of objects -/
namespace Verif.Daemon
open Verif.C Mirror
open Wifid (linkPath peerPath linkPre peerPre Canon Obj View Sig vis quiet peerVis)
open Wifid.Spec (see fits note)

variable {A : List Byte → Nat → Prop} {S : Nat → Prop} {Mg : Nat → Bool → Prop} {px : List Byte → Nat → PV} {scan : Nat → Bool}

/-- More peers are known. -/
def morePeers (i : Nat) (ps : List Wifid.Peer) (F : Obj → Option (Option View)) : Obj → Option (Option View)
  | .link j => F (.link j)
  | .peer m j => if j = i ∧ ∃ p ∈ ps, p.mac = m then some none else F (.peer m j)

/-- The entries of peers. -/
def peerEntries (std : Ifaces) (px : List Byte → Nat → PV) (i : Nat) (ps : List Wifid.Peer) : List (List Byte × Ifaces) :=
  ps.map fun p => (peerPath p.mac i, std ++ [(peerIf, (px p.mac i).props p.mac)])

theorem join_peers {std : Ifaces} (hstd : ∀ q ∈ std, q.1 ≠ peerIf) (i : Nat) (r : List (List Byte × Ifaces)) (ps : List Wifid.Peer) :
    ∀ {F : Obj → Option (Option View)} {K : Known}, J A S Mg F px scan K → (F (.link i)).isSome = true → (∀ p ∈ ps, Canon p.mac ∧ F (.peer p.mac i) = none) → (ps.map (·.mac)).Nodup →
    ∃ K', K.addAll (peerEntries std px i ps ++ r) = K'.addAll r ∧ J A S Mg (morePeers i ps F) px scan K' := by
  induction ps with
  | nil =>
    intro F K h _ _ _
    refine ⟨K, rfl, ?_⟩
    have : morePeers i [] F = F := by
      funext o
      cases o <;> simp [morePeers]
    rw [this]; exact h
  | cons p t ih =>
    intro F K h hl hp nd
    simp only [List.map_cons, List.nodup_cons] at nd
    obtain ⟨hc, hn⟩ := hp p (by simp)
    obtain ⟨h1, h2⟩ := h.addPeer hc hn hl std hstd
    obtain ⟨K', e, hJ⟩ := ih h2 (by simpa [see] using hl) (by
      intro q hq
      refine ⟨(hp q (by simp [hq])).1, ?_⟩
      have : Obj.peer p.mac i ≠ Obj.peer q.mac i := by
        intro e; injection e with e _
        exact nd.1 (by rw [e]; exact List.mem_map_of_mem hq)
      simp only [see, if_neg this]
      exact (hp q (by simp [hq])).2) nd.2
    refine ⟨K', ?_, ?_⟩
    · rw [← e]
      exact addAll_cons K _ _ _ h1
    · have : morePeers i t (fun o => see o (F o) (.added (.peer p.mac i) none)) = morePeers i (p :: t) F := by
        funext o
        cases o with
        | link j => simp [morePeers, see]
        | peer m j =>
          simp only [morePeers, see, Obj.peer.injEq]
          by_cases hj : j = i
          · subst hj
            by_cases hm : p.mac = m
            · subst hm; simp
            · simp [hm]
          · have : ¬ i = j := fun e => hj e.symm
            simp [hj, this]
      rw [← this]; exact hJ

/-- More links are known. -/
def moreLinks (L : List Wifid.Link) (F : Obj → Option (Option View)) : Obj → Option (Option View)
  | .link j => match L.find? (fun l => l.idx == j) with
    | some l => some (some (quiet l))
    | none => F (.link j)
  | .peer m j => match L.find? (fun l => l.idx == j) with
    | some l => peerVis l.peers m
    | none => F (.peer m j)

theorem peerVis_pub {ps : List Wifid.Peer} (nd : (ps.map (·.mac)).Nodup) (m : List Byte) :
    peerVis ps m = if ∃ p ∈ ps.filter Wifid.Peer.pub, p.mac = m then some none else none := by
  by_cases h : ∃ p ∈ ps.filter Wifid.Peer.pub, p.mac = m
  · rw [if_pos h]
    obtain ⟨p, hp, rfl⟩ := h
    rw [List.mem_filter] at hp
    rw [Wifid.peerVis_mem nd hp.1, if_pos hp.2]
  · rw [if_neg h]
    cases e : peerVis ps m with
    | none => rfl
    | some x =>
      obtain ⟨p, hp, hm, hpub⟩ := Wifid.peerVis_some (ps := ps) (m := m) (by rw [e]; simp)
      exact absurd ⟨p, List.mem_filter.mpr ⟨hp, hpub⟩, hm⟩ h

theorem join_links {std : Ifaces} (hstd : ∀ q ∈ std, q.1 ≠ linkIf ∧ q.1 ≠ peerIf) {d : D} (r : List (List Byte × Ifaces)) (L : List Wifid.Link) :
    ∀ {F : Obj → Option (Option View)} {K : Known}, J A S Mg F d.px d.scan K → (∀ l ∈ L, Wifid.Good l ∧ Mg l.idx l.managed ∧ F (.link l.idx) = none ∧ ∀ m, F (.peer m l.idx) = none) →
    (L.map (·.idx)).Nodup →
    ∃ K', K.addAll (L.flatMap (linkObjects std d) ++ r) = K'.addAll r ∧ J A S Mg (moreLinks L F) d.px d.scan K' := by
  induction L with
  | nil =>
    intro F K h _ _
    refine ⟨K, rfl, ?_⟩
    have : moreLinks [] F = F := by
      funext o
      cases o <;> simp [moreLinks]
    rw [this]; exact h
  | cons l t ih =>
    intro F K h hL nd
    simp only [List.map_cons, List.nodup_cons] at nd
    obtain ⟨hg, hmg, hn, hpn⟩ := hL l (by simp)
    have hne : ∀ l' ∈ t, l'.idx ≠ l.idx := fun l' hl' e => nd.1 (by rw [← e]; exact List.mem_map_of_mem hl')
    obtain ⟨h1, h2⟩ := h.addLink hn (quiet l) l.view rfl rfl rfl hmg std (fun q hq => (hstd q hq).1)
    obtain ⟨K1, e1, j1⟩ := join_peers (std := std) (fun q hq => (hstd q hq).2) l.idx (t.flatMap (linkObjects std d) ++ r) (l.peers.filter (·.pub)) h2 (by simp [see])
      (by
        intro p hp
        refine ⟨hg.canon p (List.mem_filter.mp hp).1, ?_⟩
        simp only [see]
        rw [if_neg (by intro e; cases e)]
        exact hpn _) (hg.nd.sublist (List.Sublist.map _ List.filter_sublist))
    have hF : ∀ o, morePeers l.idx (l.peers.filter (·.pub)) (fun o => see o (F o) (.added (.link l.idx) (some (quiet l)))) o = match o with
        | .link j => if j = l.idx then some (some (quiet l)) else F (.link j)
        | .peer m j => if j = l.idx then peerVis l.peers m else F (.peer m j) := by
      intro o
      cases o with
      | link j =>
        simp only [morePeers]
        by_cases e : j = l.idx
        · subst e; simp [see]
        · rw [see_link_ne e, if_neg e]
      | peer m j =>
        simp only [morePeers]
        by_cases e : j = l.idx
        · subst e
          rw [if_pos rfl, peerVis_pub hg.nd]
          simp only [true_and]
          split
          · rfl
          · simp only [see]
            rw [if_neg (by intro e; cases e)]
            exact hpn m
        · rw [if_neg e, if_neg (fun x => e x.1)]
          simp [see]
    obtain ⟨K2, e2, j2⟩ := ih j1 (by
      intro l' hl'
      obtain ⟨a, b, c, e⟩ := hL l' (by simp [hl'])
      refine ⟨a, b, ?_, ?_⟩
      · rw [hF]; simp only; rw [if_neg (hne l' hl')]; exact c
      · intro m; rw [hF]; simp only; rw [if_neg (hne l' hl')]; exact e m) nd.2
    refine ⟨K2, ?_, ?_⟩
    · rw [← e2, ← e1, List.flatMap_cons, List.append_assoc]
      exact addAll_cons K _ _ _ h1
    · have : moreLinks t (morePeers l.idx (l.peers.filter (·.pub)) (fun o => see o (F o) (.added (.link l.idx) (some (quiet l))))) = moreLinks (l :: t) F := by
        have hnone : t.find? (fun x => x.idx == l.idx) = none := by
          rw [List.find?_eq_none]
          intro x hx; simpa using hne x hx
        funext o
        cases o with
        | link j =>
          simp only [moreLinks, hF, List.find?_cons]
          by_cases e : j = l.idx
          · subst e; simp [hnone]
          · have : (l.idx == j) = false := by simp; exact fun e' => e e'.symm
            simp [this, e]
        | peer m j =>
          simp only [moreLinks, hF, List.find?_cons]
          by_cases e : j = l.idx
          · subst e; simp [hnone]
          · have : (l.idx == j) = false := by simp; exact fun e' => e e'.symm
            simp [this, e]
      rw [← this]; exact j2

theorem join_follows {std : Ifaces} (hstd : ∀ q ∈ std, q.1 ≠ linkIf ∧ q.1 ≠ peerIf) {d : D} (hi : Wifid.Inv d.m) (hM : ∀ l ∈ d.m.links, Mg l.idx l.managed) :
    Follows A S Mg d (Known.hear .nothing (.objects (d.objects std))) := by
  have h0 : J A S Mg (fun _ => none) d.px d.scan .nothing := by
    refine ⟨?_, fun _ _ => rfl, ?_, ?_, fun _ _ _ _ => rfl, ?_, ?_⟩
    · intro i w h; cases h
    · intro i h; cases h
    · intro m i x _ h; cases h
    · intro k h; exact absurd rfl h
    · intro k h; exact absurd rfl h
  obtain ⟨K', e, hJ⟩ := join_links (std := std) hstd [(Wifid.root, std)] d.m.links h0 (fun l hl => ⟨hi.shape.good l hl, hM l hl, rfl, fun _ => rfl⟩) hi.shape.nd
  have hroot : K'.addAll [(Wifid.root, std)] = K' := by
    have : K'.add Wifid.root std = (K', true) := by
      unfold Known.add
      rw [label_root.1, label_root.2]
    rw [Known.addAll, this]
    rfl
  unfold Follows
  show J A S Mg _ _ _ (Known.addAll .nothing (d.m.links.flatMap (linkObjects std d) ++ [(Wifid.root, std)]))
  rw [e, hroot]
  have : moreLinks d.m.links (fun _ => none) = vis d.m := by
    funext o
    cases o with
    | link j =>
      simp only [moreLinks, vis, Wifid.Mgr.find]
      cases d.m.links.find? (fun l => l.idx == j) <;> rfl
    | peer m j =>
      simp only [moreLinks, vis, Wifid.Mgr.find]
      cases d.m.links.find? (fun l => l.idx == j) <;> rfl
  rw [← this]; exact hJ

end Verif.Daemon
