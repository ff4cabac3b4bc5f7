import Verif.Proof.P2pAll
import Verif.Proof.P2pRun
/-! # Helper lemmas: names of interfaces -/
namespace Verif.P2p
open Verif.C

/-- Groups only go, those that stay keep their interface. -/
def Sub (s s' : S) : Prop := ∀ k z', s'.gheap k = some z' → ∃ z, s.gheap k = some z ∧ z.ifname = z'.ifname

theorem Sub.refl (s : S) : Sub s s := fun _ z h => ⟨z, h, rfl⟩

theorem Sub.trans {a b c : S} (h : Sub a b) (k : Sub b c) : Sub a c := by
  intro i z hz
  obtain ⟨y, hy, e⟩ := k i z hz
  obtain ⟨x, hx, f⟩ := h i y hy
  exact ⟨x, hx, f.trans e⟩

theorem Sub.after {a b c : S} (k : Sub b c) (h : Sub a b) : Sub a c := h.trans k

theorem Sub.eq {s s' : S} (h : s'.gheap = s.gheap) : Sub s s' := by
  intro k z hz
  rw [h] at hz
  exact ⟨z, hz, rfl⟩

theorem Sub.setGrp {s : S} {g : Nat} {x x' : Grp} (hx : s.gheap g = some x) (h : x'.ifname = x.ifname) : Sub s (s.setGrp g x') := by
  intro k z hz
  by_cases e : k = g
  · subst e
    simp only [S.setGrp, upd_same] at hz
    cases hz
    exact ⟨x, hx, h.symm⟩
  · simp only [S.setGrp, upd_ne _ _ e] at hz
    exact ⟨z, hz, rfl⟩

theorem Sub.erase (s : S) (g : Nat) (l : List Nat) : Sub s { s with groups := l, gheap := upd s.gheap g none } := by
  intro k z hz
  by_cases e : k = g
  · subst e
    simp only [upd_same] at hz
    cases hz
  · simp only [upd_ne _ _ e] at hz
    exact ⟨z, hz, rfl⟩

theorem emitIf_gheap (s : S) (c : Bool) (o : Out) : (s.emitIf c o).gheap = s.gheap := by
  unfold S.emitIf
  split <;> rfl

theorem connectedChanged_sub {s s' : S} {p : Nat} {v : Bool} (h : s.connectedChanged p v = some s') : Sub s s' := by
  unfold S.connectedChanged at h
  split at h
  · cases h
  · split at h
    · cases h; exact .refl _
    · cases h; exact .eq (emitIf_gheap _ _ _)

theorem formationFailure_sub {s s' : S} {p : Nat} (h : s.formationFailure p = some s') : Sub s s' := by
  unfold S.formationFailure at h
  split at h
  · cases h
  · cases h; exact .eq (emitIf_gheap _ _ _)

theorem dropGroupWith_sub {f : S → Nat → Option S} (hf : ∀ s g s', f s g = some s' → Sub s s') {s s' : S} {p : Nat} (h : S.dropGroupWith f s p = some s') : Sub s s' := by
  unfold S.dropGroupWith at h
  split at h
  · cases h
  · split at h
    · cases h; exact .refl _
    · split at h
      · cases h
      · rename_i x hx
        simp only at h
        split at h
        · cases h
        · rename_i s1 h1
          have q1 : Sub s s1 := by
            split at h1
            · cases h1; exact .refl _
            · split at h1
              · cases h1; exact .refl _
              · split at h1
                · cases h1; exact .setGrp hx rfl
                · exact (hf _ _ _ h1).after (.setGrp hx rfl)
          split at h
          · cases h
          · exact q1.trans ((connectedChanged_sub h).after (.eq rfl))

theorem dropAllWith_sub {f : S → Nat → Option S} (hf : ∀ s g s', f s g = some s' → Sub s s') (g : Nat) : ∀ (l : List Nat) {s s' : S}, S.dropAllWith f g s l = some s' → Sub s s'
  | [], s, s', h => by rw [S.dropAllWith] at h; cases h; exact .refl _
  | p :: t, s, s', h => by
    rw [S.dropAllWith] at h
    split at h
    · cases h
    · split at h
      · split at h
        · cases h
        · rename_i h1
          exact (dropGroupWith_sub hf h1).trans (dropAllWith_sub hf g t h)
      · exact dropAllWith_sub hf g t h

theorem groupFree_sub : ∀ (n : Nat) (s : S) (g : Nat) (s' : S), S.groupFree n s g = some s' → Sub s s'
  | 0, s, g, s', h => by rw [S.groupFree] at h; cases h
  | n + 1, s, g, s', h => by
    rw [S.groupFree] at h
    split at h
    · cases h
    · rename_i x hx
      simp only at h
      split at h
      · cases h
      · rename_i s1 h1
        split at h
        · cases h
        · cases h
          have q := dropAllWith_sub (groupFree_sub n) g _ h1
          have q0 : Sub s (((s.emitIf s.bus (.groupRemove x.ifname)).setGrp g { x with dhcp := false }).emitIf x.dhcp (.dhcpKill g)) :=
            ((Sub.eq (emitIf_gheap _ _ _)).after (Sub.setGrp (x := x) (x' := { x with dhcp := false }) (by rw [emitIf_gheap]; exact hx) rfl)).after (Sub.eq (emitIf_gheap s s.bus (.groupRemove x.ifname)))
          exact (q0.trans q).trans (.erase _ _ _)

theorem dropGroup_sub {s s' : S} {p : Nat} (h : s.dropGroup p = some s') : Sub s s' := dropGroupWith_sub (groupFree_sub _) h

theorem setGroup_sub {s s' : S} {p g : Nat} (h : s.setGroup p g = some s') : Sub s s' := by
  unfold S.setGroup at h
  split at h
  · cases h
  · split at h
    · cases h; exact .refl _
    · split at h
      · cases h
      · rename_i s1 h1
        have q1 : Sub s s1 := by
          split at h1
          · exact dropGroup_sub h1
          · cases h1; exact .refl _
        split at h
        · rename_i y x hy hx
          cases h
          exact q1.trans (Sub.after (b := s1.setPeer p { y with g := some g }) (Sub.setGrp (x := x) hx rfl) (.eq rfl))
        · cases h

theorem started_sub {s s' : S} {p : Nat} (h : s.started p = some s') : Sub s s' := by
  unfold S.started at h
  split at h
  · cases h
  · split at h
    · cases h; exact .refl _
    · cases h; exact .eq rfl

theorem peerFree_sub {s s' : S} {p : Nat} (h : s.peerFree p = some s') : Sub s s' := by
  unfold S.peerFree at h
  split at h
  · cases h
  · rename_i s1 h1
    have q1 : Sub s s1 := by
      split at h1
      · exact (formationFailure_sub h1).after (.eq rfl)
      · cases h1; exact .refl _
    split at h
    · cases h
    · rename_i s2 h2
      split at h
      · cases h
      · cases h
        exact (q1.trans (dropGroup_sub h2)).trans (.eq (by rw [← emitIf_gheap s2]))

theorem tell_sub (g : Nat) : ∀ (l : List Nat) {s s' : S}, S.tell s g l = some s' → Sub s s'
  | [], s, s', h => by rw [S.tell] at h; cases h; exact .refl _
  | p :: t, s, s', h => by
    rw [S.tell] at h
    split at h
    · cases h
    · split at h
      · exact tell_sub g t h
      · split at h
        · cases h
        · rename_i h1
          exact (connectedChanged_sub h1).trans (tell_sub g t h)

theorem announce_sub {s s' : S} {g : Nat} (h : s.announce g = some s') : Sub s s' := by
  unfold S.announce at h
  split at h
  · cases h
  · split at h
    · cases h; exact .refl _
    · split at h
      · split at h
        · cases h
        · split at h
          · cases h; exact .refl _
          · exact connectedChanged_sub h
      · exact tell_sub g _ h

theorem applyLine_sub {s s' : S} {g : Nat} {x : Grp} (hx : s.gheap g = some x) {k : Byte} {t : List Byte} {mem : Bool} (h : s.applyLine g x k t mem = some s') : Sub s s' := by
  unfold S.applyLine at h
  split at h
  · cases h; exact .setGrp hx rfl
  · split at h
    · split at h
      · cases h; exact .refl _
      · split at h
        · cases h
        · cases h; exact .eq rfl
    · split at h
      · simp only at h
        split at h
        · cases h; exact .refl _
        · split at h
          · cases h; exact .refl _
          · split at h
            · cases h; exact .refl _
            · split at h
              · cases h
              · cases h; exact .eq rfl
      · cases h; exact .refl _

theorem comm_sub {s s' : S} {g : Nat} {c : Comm} {m1 m2 : Bool} (h : s.comm g c m1 m2 = some s') : Sub s s' := by
  unfold S.comm at h
  split at h
  · cases h
  · rename_i x hx
    split at h
    · exact groupFree_sub _ _ _ _ h
    · simp only at h
      split at h
      · cases h; exact .refl _
      · split at h
        · cases h; exact .refl _
        · obtain ⟨s1, h1, h2⟩ := Option.bind_eq_some_iff.mp h
          exact (applyLine_sub hx h1).trans (announce_sub h2)

theorem startedAll_sub : ∀ (l : List Nat) {s s' : S}, S.startedAll s l = some s' → Sub s s'
  | [], s, s', h => by rw [S.startedAll] at h; cases h; exact .refl _
  | p :: t, s, s', h => by
    rw [S.startedAll] at h
    split at h
    · cases h
    · rename_i h1
      exact (started_sub h1).trans (startedAll_sub t h)

theorem freePeers_sub : ∀ (l : List Nat) {s s' : S}, S.freePeers s l = some s' → Sub s s'
  | [], s, s', h => by rw [S.freePeers] at h; cases h; exact .refl _
  | p :: t, s, s', h => by
    rw [S.freePeers] at h
    split at h
    · cases h
    · rename_i h1
      exact (peerFree_sub h1).trans (freePeers_sub t h)

theorem freeGroups_sub : ∀ (n : Nat) {s s' : S}, S.freeGroups n s = some s' → Sub s s'
  | 0, s, s', h => by rw [S.freeGroups] at h; cases h; exact .refl _
  | n + 1, s, s', h => by
    rw [S.freeGroups] at h
    split at h
    · cases h; exact .refl _
    · split at h
      · cases h
      · rename_i h1
        exact (groupFree_sub _ _ _ _ h1).trans (freeGroups_sub n h)

theorem connect_sub {s s' : S} {p : Nat} {prov pin : Option (List Byte)} {call : Bool} (h : s.connect p prov pin call = some s') : Sub s s' := by
  unfold S.connect at h
  split at h
  · cases h
  · simp only at h
    repeat' split at h
    all_goals (cases h; exact .eq rfl)

theorem parsePeer_sub {s s' : S} {mac : List Byte} {order : List Nat} (h : s.parsePeer mac order = some s') : Sub s s' := by
  have go : ∀ {s1 : S} {p : Nat}, (if s1.running then s1.started p else some s1) = some s' → Sub s s1 → Sub s s' := by
    intro s1 p h k
    split at h
    · exact k.trans (started_sub h)
    · cases h; exact k
  cases hf : s.findPeer mac with
  | some p =>
    simp only [S.parsePeer, hf] at h
    exact go h (.refl _)
  | none =>
    simp only [S.parsePeer, hf] at h
    unfold S.peerNew at h
    by_cases hc : (s.findPeer (s.norm mac)).isSome = true
    · simp only [if_pos hc] at h
      cases h; exact .refl _
    · simp only [if_neg hc] at h
      split at h
      · exact (started_sub h).after (.eq rfl)
      · cases h; exact .eq rfl

/-- No two groups have the same interface. -/
def Names (s : S) : Prop := ∀ g k x z, s.gheap g = some x → s.gheap k = some z → x.ifname = z.ifname → g = k

theorem Names.sub {s s' : S} (h : Names s) (k : Sub s s') : Names s' := by
  intro a b x z hx hz e
  obtain ⟨x', hx', ex⟩ := k a x hx
  obtain ⟨z', hz', ez⟩ := k b z hz
  exact h a b x' z' hx' hz' (by rw [ex, ez, e])

theorem handle_names {s s' : S} (hg : Good s) (hn : Names s) {op : Op} (h : s.handle op = some s') : Names s' := by
  cases op with
  | groupStarted mac ifname go spawn watch =>
    simp only [S.handle] at h
    split at h
    · cases h; exact hn
    · have rest : ∀ {s1 : S} {g : Nat}, Names s1 → (match s.findPeer mac with
          | none => some s1
          | some p =>
            match s1.setGroup p g with
            | none => none
            | some s =>
              match s.gheap g with
              | none => none
              | some x => some (s.setGrp g { x with owner := some p })) = some s' → Names s' := by
        intro s1 g k h
        split at h
        · cases h; exact k
        · split at h
          · cases h
          · rename_i s2 h2
            split at h
            · cases h
            · rename_i x hx
              cases h
              exact k.sub ((setGroup_sub h2).trans (.setGrp hx rfl))
      cases hf : s.findGroup ifname with
      | some g =>
        simp only [hf] at h
        exact rest hn h
      | none =>
        simp only [hf] at h
        rcases groupNew_case hg ifname go spawn watch with ⟨t, -, -, e', -⟩ | ⟨-, -, -, e'⟩
        · simp only [e'] at h
          cases h
          exact hn.sub (.eq rfl)
        · simp only [e'] at h
          refine rest ?_ h
          have no : ∀ k z, s.gheap k = some z → z.ifname ≠ ifname := by
            intro k z hz ez
            unfold S.findGroup at hf
            rw [List.find?_eq_none] at hf
            exact hf k ((hg.i.gl k).mpr ⟨z, hz⟩) (by simp [hz, ez])
          intro a b x z hx hz e
          simp only [] at hx hz
          by_cases ea : a = s.next <;> by_cases eb : b = s.next
          · rw [ea, eb]
          · rw [ea, upd_same] at hx
            rw [upd_ne _ _ eb] at hz
            cases hx
            exact absurd e.symm (no b z hz)
          · rw [eb, upd_same] at hz
            rw [upd_ne _ _ ea] at hx
            cases hz
            exact absurd e (no a x hx)
          · rw [upd_ne _ _ ea] at hx
            rw [upd_ne _ _ eb] at hz
            exact hn a b x z hx hz e
  | found mac order => exact hn.sub (parsePeer_sub h)
  | lost mac =>
    simp only [S.handle] at h
    split at h
    · cases h; exact hn
    · exact hn.sub (peerFree_sub h)
  | provision mac prov pin mem =>
    simp only [S.handle] at h
    repeat' split at h
    all_goals first
      | (cases h; done)
      | (cases h; first | exact hn | exact hn.sub (.eq (emitIf_gheap _ _ _)))
  | negotiation mac =>
    simp only [S.handle] at h
    split at h
    · cases h; exact hn
    · split at h
      · cases h
      · cases h
        refine hn.sub ((Sub.eq (emitIf_gheap _ _ _)).after ?_)
        split
        · exact .eq rfl
        · exact .refl _
  | negotiated mac sta mem =>
    simp only [S.handle] at h
    repeat' split at h
    all_goals first
      | (cases h; done)
      | (cases h; first | exact hn | exact hn.sub (.eq rfl))
  | groupRemoved ifname =>
    simp only [S.handle] at h
    split at h
    · cases h; exact hn
    · exact hn.sub (groupFree_sub _ _ _ _ h)
  | formationFailed =>
    simp only [S.handle] at h
    split at h
    · cases h; exact hn
    · exact hn.sub ((formationFailure_sub h).after (.eq rfl))
  | staConnected mac sta ifname mem =>
    simp only [S.handle] at h
    split at h
    · cases h; exact hn
    · split at h
      · cases h
      · split at h
        · cases h; exact hn
        · split at h
          · cases h; exact hn
          · split at h
            · cases h; exact hn.sub (.eq rfl)
            · split at h
              · cases h; exact hn.sub (.eq rfl)
              · exact hn.sub ((setGroup_sub h).after (.eq rfl))
  | staDisconnected mac =>
    simp only [S.handle] at h
    split at h
    · cases h; exact hn
    · split at h
      · cases h
      · split at h
        · cases h
        · rename_i s1 h1
          refine hn.sub ((dropGroup_sub h).after ?_)
          split at h1
          · split at h1
            · exact (connectedChanged_sub h1).after (.eq rfl)
            · exact (formationFailure_sub h1).after (.eq rfl)
          · cases h1; exact .refl _
  | comm g c mem1 mem2 =>
    simp only [S.handle] at h
    split at h
    · exact hn.sub (comm_sub h)
    · cases h; exact hn
  | helperDied g =>
    simp only [S.handle] at h
    split at h
    · exact hn.sub (groupFree_sub _ _ _ _ h)
    · cases h; exact hn
  | connect mac prov pin call =>
    simp only [S.handle] at h
    split at h
    · cases h; exact hn
    · split at h
      · exact hn.sub (connect_sub h)
      · cases h; exact hn
  | disconnect mac =>
    simp only [S.handle] at h
    split at h
    · cases h; exact hn
    · split at h
      · cases h
      · split at h
        · exact hn.sub ((dropGroup_sub h).after (.eq rfl))
        · cases h; exact hn
  | startScan =>
    simp only [S.handle] at h
    cases h
    split
    · exact hn.sub (.eq rfl)
    · exact hn
  | attached => cases h; exact hn.sub (.eq rfl)
  | ready =>
    simp only [S.handle] at h
    split at h
    · cases h; exact hn
    · exact hn.sub ((startedAll_sub _ h).after (.eq rfl))
  | ownMac mac => cases h; exact hn.sub (.eq rfl)
  | stopped =>
    simp only [S.handle] at h
    split at h
    · cases h
    · rename_i s1 h1
      split at h
      · cases h
      · rename_i s2 h2
        cases h
        exact hn.sub (((freePeers_sub _ h1).trans (freeGroups_sub _ h2)).after (.eq rfl) |>.trans (.eq rfl))

theorem run_names : ∀ (ops : List Op) {s s' : S}, Inv s → Names s → s.run ops = some s' → Names s'
  | [], s, s', _, hn, h => by rw [S.run] at h; cases h; exact hn
  | o :: t, s, s', hi, hn, h => by
    rw [S.run] at h
    split at h
    · cases h
    · rename_i s1 h1
      have hi1 : Inv s1 := Inv.run [o] hi (by simp only [S.run, h1])
      refine run_names t hi1 ?_ h
      unfold S.step at h1
      split at h1
      · cases h1; exact hn
      · exact handle_names hi.g hn h1

theorem start_names (zx : Bool) : Names (start zx) := by
  intro g k x z hx
  cases hx

theorem freed_gheap (s : S) (g : Nat) (x : Grp) : (s.freed g x).gheap = upd s.gheap g none := by
  rw [freed_frame]

end Verif.P2p
