import Verif.Proof.WifidPaths
/-! # Helper lemmas for what wpa_supplicant is told -/
namespace Verif.Wifid
open Verif.C Spec

/-- What kinds of events a history has: names set by users; settings `Managed`; renamed devices. -/
structure Kinds where
  named : Bool
  man : Bool
  moved : Bool

/-- The intent that is used. -/
def clip (n : Nat) : Nat := if n ≤ 15 then n else 0

/-- The configuration for a name. -/
def confFor (o : Opts) (friendly : Option (List Byte)) : List Byte :=
  config { idx := 0, name := [], friendly := friendly, methods := o.methods, driver := o.driver, intent := clip o.intent }

/-- A signal fits to what is known and to the next signal. -/
def tellOk (o : Opts) (fl : Kinds) (k : Obj → Option (Option View)) (nxt : Option Sig) : Sig → Prop
  | .added _ v => ∀ v', v = some v' → v'.friendly = none ∧ v'.wfd = none ∧ v'.managed = false
  | .removed _ => True
  | .changed _ (.friendly _) => fl.named = true
  | .changed _ (.name _) => fl.moved = true
  | .changed _ (.wfd _) => True
  | .device idx n => (∃ v, k (.link idx) = some (some v) ∧ n = v.friendly.getD (bytes "Miracle")) ∨ nxt = some (.changed (.link idx) (.friendly (some n)))
  | .subelem idx x => (∃ v, k (.link idx) = some (some v) ∧ x = v.wfd.getD []) ∨ nxt = some (.changed (.link idx) (.wfd (some x)))
  | .config idx text => fl.man = true ∧ ∃ v, k (.link idx) = some (some v) ∧ text = confFor o v.friendly

def tellFrom (o : Opts) (fl : Kinds) : (Obj → Option (Option View)) → List Sig → Prop
  | _, [] => True
  | k, g :: t => tellOk o fl k t.head? g ∧ tellFrom o fl (fun o => see o (k o) g) t

theorem tellOk_mono {o : Opts} {fl : Kinds} {k : Obj → Option (Option View)} {g : Sig} (x : Option Sig) (h : tellOk o fl k none g) : tellOk o fl k x g := by
  cases g with
  | device idx n => rcases h with h | h
                    · exact Or.inl h
                    · cases h
  | subelem idx n => rcases h with h | h
                     · exact Or.inl h
                     · cases h
  | changed ob v => cases v <;> exact h
  | _ => exact h

theorem tellFrom_append {o : Opts} {fl : Kinds} {k : Obj → Option (Option View)} {a b : List Sig} (ha : tellFrom o fl k a)
    (hb : tellFrom o fl (fun o => a.foldl (see o) (k o)) b) : tellFrom o fl k (a ++ b) := by
  induction a generalizing k with
  | nil => exact hb
  | cons g t ih =>
    refine ⟨?_, ih ha.2 hb⟩
    cases t with
    | nil => exact tellOk_mono _ ha.1
    | cons x u => exact ha.1

theorem tellFrom_at {o : Opts} {fl : Kinds} {k : Obj → Option (Option View)} {a b : List Sig} {g : Sig} (h : tellFrom o fl k (a ++ g :: b)) :
    tellOk o fl (fun o => a.foldl (see o) (k o)) b.head? g := by
  induction a generalizing k with
  | nil => exact h.1
  | cons x t ih => exact ih h.2

/-- A signal that says nothing that could be wrong. -/
def mute : Sig → Bool
  | .removed _ => true
  | .added (.peer _ _) none => true
  | _ => false

theorem tell_mute {o : Opts} {fl : Kinds} (k : Obj → Option (Option View)) (g : List Sig) (h : ∀ x ∈ g, mute x = true) : tellFrom o fl k g := by
  induction g generalizing k with
  | nil => trivial
  | cons x t ih =>
    refine ⟨?_, ih _ (fun y hy => h y (by simp [hy]))⟩
    have := h x (by simp)
    cases x with
    | added ob v =>
      cases ob with
      | link i => cases this
      | peer m i =>
        cases v with
        | none => intro v' e; cases e
        | some v => cases this
    | removed ob => trivial
    | _ => cases this

structure LinkOk (o : Opts) (fl : Kinds) (l : Link) : Prop where
  methods : l.methods = o.methods
  driver : l.driver = o.driver
  intent : l.intent = clip o.intent
  man : l.managed = true → fl.man = true
  iface : fl.moved = true ∨ o.iface = none ∨ o.iface = some l.name
  nop2p : fl.moved = true ∨ (bytes "p2p-").isPrefixOf l.name = false

structure Told (o : Opts) (fl : Kinds) (s : Mgr) : Prop where
  inv : Inv s
  conf : ∀ l ∈ s.links, LinkOk o fl l
  tell : tellFrom o fl (fun _ => none) s.log

theorem told_step {o : Opts} {fl : Kinds} {s s' : Mgr} (h : Inv s) (ht : tellFrom o fl (fun _ => none) s.log) (g : List Sig) (hlog : s'.log = s.log ++ g) (hinv : Inv s')
    (hconf : ∀ l ∈ s'.links, LinkOk o fl l) (htell : tellFrom o fl (vis s) g) : Told o fl s' := by
  refine ⟨hinv, hconf, ?_⟩
  rw [hlog]
  apply tellFrom_append ht
  have e : (fun o => s.log.foldl (see o) none) = vis s := funext h.track
  rw [e]; exact htell

theorem conf_update {o : Opts} {fl : Kinds} {s : Mgr} (h : ∀ l ∈ s.links, LinkOk o fl l) (i : Nat) (f : Link → Link) (hf : ∀ l ∈ s.links, l.idx = i → LinkOk o fl (f l)) :
    ∀ l ∈ (s.update i f).links, LinkOk o fl l := by
  intro l hl
  obtain ⟨l0, h0, rfl⟩ := List.mem_map.mp hl
  split
  · rename_i e; exact hf l0 h0 e
  · exact h l0 h0

theorem conf_of {o : Opts} {fl : Kinds} {s : Mgr} (h : Told o fl s) {i : Nat} {l : Link} (hl : s.find i = some l) : LinkOk o fl l := h.conf l (find_idx hl).2

theorem dropPeers_told {o : Opts} {fl : Kinds} {s : Mgr} (h : Told o fl s) {i : Nat} {l : Link} (hl : s.find i = some l) : Told o fl (s.dropPeers l) := by
  refine told_step h.inv h.tell (stopPeers l.idx l.peers l.cnt).1 rfl (dropPeers_inv h.inv hl) ?_ (tell_mute _ _ ?_)
  · unfold Mgr.dropPeers
    apply conf_update h.conf
    intro l' hl' _
    have := h.conf l' hl'
    exact ⟨this.methods, this.driver, this.intent, this.man, this.iface, this.nop2p⟩
  · intro x hx
    obtain ⟨p, _, _, rfl⟩ := stop_removed _ _ _ _ hx
    rfl

theorem setManaged_told {o : Opts} {fl : Kinds} {s : Mgr} (h : Told o fl s) (i : Nat) (set ok : Bool) (hm : set = true → fl.man = true) : Told o fl (s.setManaged i set ok) := by
  have hinv := setManaged_inv h.inv i set ok
  unfold Mgr.setManaged at *
  cases hl : s.find i with
  | none => exact h
  | some l =>
    simp only [hl] at hinv ⊢
    split
    · exact h
    · rename_i h1
      rw [if_neg h1] at hinv
      split
      · rename_i h2
        rw [if_pos h2] at hinv
        split
        · rename_i h3
          rw [if_pos h3] at hinv
          have hc := conf_of h hl
          refine told_step h.inv h.tell [.config i (config l)] rfl hinv ?_ ⟨⟨hm h2, quiet l, vis_link hl, ?_⟩, trivial⟩
          · apply conf_update h.conf
            intro l' hl' _
            have := h.conf l' hl'
            exact ⟨this.methods, this.driver, this.intent, fun _ => hm h2, this.iface, this.nop2p⟩
          · unfold confFor config quiet Link.view
            simp only
            rw [hc.methods, hc.driver, hc.intent]
        · exact h
      · rename_i h2
        rw [if_neg h2] at hinv
        have hd := dropPeers_told h hl
        refine told_step hd.inv hd.tell [] (by simp [Mgr.update]) hinv ?_ trivial
        apply conf_update hd.conf
        intro l' hl' _
        have := hd.conf l' hl'
        exact ⟨this.methods, this.driver, this.intent, (fun e => by cases e), this.iface, this.nop2p⟩

theorem linkFree_told {o : Opts} {fl : Kinds} {s : Mgr} (h : Told o fl s) (i : Nat) : Told o fl (s.linkFree i) := by
  have hinv := linkFree_inv h.inv i
  unfold Mgr.linkFree at *
  cases hl : s.find i with
  | none => exact h
  | some l =>
    simp only [hl] at hinv ⊢
    have h1 := setManaged_told h i false true (by intro e; cases e)
    refine told_step h1.inv h1.tell [.removed (.link i)] rfl hinv ?_ (tell_mute _ _ (by intro x hx; rw [List.mem_singleton.mp hx]; rfl))
    intro l hl
    exact h1.conf l (List.mem_filter.mp hl).1

theorem property_told {o : Opts} {fl : Kinds} {s : Mgr} (h : Told o fl s) {i : Nat} {l : Link} (hl : s.find i = some l) (f : Link → Link)
    (hc : ∀ l, LinkOk o fl l → LinkOk o fl (f l)) (pre : List Sig) (x : Val)
    (hpre : tellFrom o fl (vis s) (pre ++ [.changed (.link i) x]))
    (hinv : Inv ((s.update i f).emit (pre ++ if l.pub then [.changed (.link i) x] else []))) :
    Told o fl ((s.update i f).emit (pre ++ if l.pub then [.changed (.link i) x] else [])) := by
  rw [if_pos (good_of h.inv.shape hl).pub] at *
  refine told_step h.inv h.tell _ rfl hinv ?_ hpre
  apply conf_update h.conf
  intro l' hl' _
  exact hc l' (h.conf l' hl')

theorem rename_told {o : Opts} {fl : Kinds} {s : Mgr} (h : Told o fl s) (i : Nat) (name : List Byte) (ok : Bool) (hf : fl.moved = true) : Told o fl (s.rename i name ok) := by
  have hinv := rename_inv h.inv i name ok
  unfold Mgr.rename at *
  cases hl : s.find i with
  | none => exact h
  | some l =>
    simp only [hl] at hinv ⊢
    split
    · exact h
    · rename_i h1
      rw [if_neg h1] at hinv
      exact property_told h hl (fun l => { l with name := name }) (fun l hc => ⟨hc.methods, hc.driver, hc.intent, hc.man, Or.inl hf, Or.inl hf⟩) [] (.name name) ⟨hf, trivial⟩ hinv

theorem setFriendly_told {o : Opts} {fl : Kinds} {s : Mgr} (h : Told o fl s) (i : Nat) (name : List Byte) (ok ready sent : Bool) (hf : fl.named = true) :
    Told o fl (s.setFriendly i name ok ready sent) := by
  have hinv := setFriendly_inv h.inv i name ok ready sent
  unfold Mgr.setFriendly at *
  cases hl : s.find i with
  | none => exact h
  | some l =>
    simp only [hl] at hinv ⊢
    split
    · exact h
    · rename_i h1
      rw [if_neg h1] at hinv
      split
      · exact h
      · rename_i h2
        rw [if_neg h2] at hinv
        refine property_told h hl (fun l => { l with friendly := some name }) (fun l hc => ⟨hc.methods, hc.driver, hc.intent, hc.man, hc.iface, hc.nop2p⟩) _ _ ?_ hinv
        split
        · exact ⟨Or.inr rfl, hf, trivial⟩
        · exact ⟨hf, trivial⟩

theorem setWfd_told {o : Opts} {fl : Kinds} {s : Mgr} (h : Told o fl s) (i : Nat) (val : List Byte) (ok ready sent : Bool) :
    Told o fl (s.setWfd i val ok ready sent) := by
  have hinv := setWfd_inv h.inv i val ok ready sent
  unfold Mgr.setWfd at *
  cases hl : s.find i with
  | none => exact h
  | some l =>
    simp only [hl] at hinv ⊢
    split
    · exact h
    · rename_i h1
      rw [if_neg h1] at hinv
      split
      · exact h
      · rename_i h2
        rw [if_neg h2] at hinv
        refine property_told h hl (fun l => { l with wfd := some val }) (fun l hc => ⟨hc.methods, hc.driver, hc.intent, hc.man, hc.iface, hc.nop2p⟩) _ _ ?_ hinv
        split
        · exact ⟨Or.inr rfl, trivial, trivial⟩
        · exact ⟨trivial, trivial⟩

/-- A new link, as `linkNew` makes it. -/
theorem linkNew_cases (s : Mgr) (a : Alloc) (pos i : Nat) (name : List Byte) :
    ((s.linkNew a pos i name).2 = true ∧ (s.linkNew a pos i name).1.find i = some { idx := i, name := name }
      ∧ (∀ l ∈ (s.linkNew a pos i name).1.links, l.idx = i ∨ l ∈ s.links)
      ∧ (s.linkNew a pos i name).1.log = s.log ++ [.added (.link i) (some (Link.view { idx := i, name := name }))])
    ∨ ((s.linkNew a pos i name).2 = false ∧ (s.linkNew a pos i name).1.links = s.links
      ∧ ∃ g, (∀ x ∈ g, mute x = true) ∧ (s.linkNew a pos i name).1.log = s.log ++ g) := by
  unfold Mgr.linkNew
  split
  · exact Or.inr ⟨rfl, rfl, [], by simp, by simp⟩
  · split
    · exact Or.inr ⟨rfl, rfl, [], by simp, by simp⟩
    · rename_i hnone
      have hnone : s.find i = none := by
        cases hf : s.find i with
        | none => rfl
        | some x => rw [hf] at hnone; exact absurd rfl hnone
      split
      · exact Or.inr ⟨rfl, rfl, [], by simp, by simp⟩
      · split
        · left
          refine ⟨rfl, ?_, ?_, rfl⟩
          · show List.find? _ (place pos _ s.links) = _
            rw [find?_place]
            · simp
            · intro y hy hyj
              exact absurd hyj (List.find?_eq_none.mp hnone y hy)
          · intro l hl
            rcases List.mem_cons.mp ((place_perm pos _ s.links).mem_iff.mp hl) with rfl | h
            · exact Or.inl rfl
            · exact Or.inr h
        · exact Or.inr ⟨rfl, rfl, [.removed (.link i)], by intro x hx; rw [List.mem_singleton.mp hx]; rfl, rfl⟩

theorem setup_ok (o : Opts) (fl : Kinds) (i : Nat) (name : List Byte) (h1 : o.iface = none ∨ o.iface = some name) (h2 : (bytes "p2p-").isPrefixOf name = false) :
    LinkOk o fl (((Link.setMethods o.methods { idx := i, name := name }).setDriver o.driver).setIntent o.intent) := by
  have e : (((Link.setMethods o.methods { idx := i, name := name }).setDriver o.driver).setIntent o.intent) = { idx := i, name := name, methods := o.methods, driver := o.driver, intent := clip o.intent } := by
    unfold Link.setMethods Link.setDriver Link.setIntent clip
    cases o.methods <;> cases o.driver <;> by_cases h : o.intent ≤ 15 <;> simp [h] <;> omega
  rw [e]
  exact ⟨rfl, rfl, rfl, (fun e => by cases e), Or.inr h1, Or.inr h2⟩

theorem addDev_told {o : Opts} {fl : Kinds} {s : Mgr} (h : Told o fl s) (a : Alloc) (pos : Nat) (d : Dev) (ok : Bool) (hm : o.lazy = false → fl.man = true) :
    Told o fl (s.addDev o a pos d ok) := by
  unfold Mgr.addDev
  split
  · exact h
  · cases d.name with
    | none => exact h
    | some name =>
      simp only
      split
      · exact h
      · rename_i hif
        split
        · exact h
        · rename_i hp2p
          have hif' : o.iface = none ∨ o.iface = some name := by
            cases hi : o.iface with
            | none => exact Or.inl rfl
            | some n =>
              right
              rw [hi] at hif
              simp at hif
              rw [hif]
          have hcs := linkNew_cases s a pos d.idx name
          have h1 := linkNew_inv h.inv a pos d.idx name
          generalize s.linkNew a pos d.idx name = r at *
          rcases hcs with ⟨e, hfind, hlinks, hlog⟩ | ⟨e, hlinks, g, hg, hlog⟩
          · rw [if_neg (by rw [e]; decide), hfind]
            have hno : ¬ (o.host.isSome = true ∧ Option.any (fun x => x.managed) (some ({ idx := d.idx, name := name } : Link)) = true) := by simp
            simp only [if_neg hno]
            have h3 : Inv (r.1.update d.idx fun l => ((l.setMethods o.methods).setDriver o.driver).setIntent o.intent) :=
              silent_inv h1 _ _ (fun l => (setup_facts o l).1) (fun l => (setup_facts o l).2.1) (fun l => (setup_facts o l).2.2.1) (fun l => (setup_facts o l).2.2.2)
            have h4 : Told o fl (r.1.update d.idx fun l => ((l.setMethods o.methods).setDriver o.driver).setIntent o.intent) := by
              refine told_step h.inv h.tell _ hlog h3 ?_ ⟨?_, trivial⟩
              · intro l hl
                obtain ⟨l0, h0, rfl⟩ := List.mem_map.mp hl
                split
                · rename_i e
                  have := find_of_mem h1.shape.nd h0
                  rw [e, hfind] at this
                  cases this
                  exact setup_ok o fl _ _ hif' (by revert hp2p; cases (bytes "p2p-").isPrefixOf name <;> simp)
                · rename_i e
                  rcases hlinks l0 h0 with h' | h'
                  · exact absurd h' e
                  · exact h.conf l0 h'
              · intro v' e; cases e; exact ⟨rfl, rfl, rfl⟩
            cases hmm : (if o.rely = true then d.tag && !o.lazy else !o.lazy) with
            | false => exact h4
            | true =>
              refine setManaged_told h4 _ _ _ (fun _ => hm ?_)
              cases hz : o.lazy with
              | false => rfl
              | true => simp [hz] at hmm
          · rw [if_pos e]
            exact told_step h.inv h.tell g hlog h1 (by rw [hlinks]; exact h.conf) (tell_mute _ _ hg)

theorem udev_told {o : Opts} {fl : Kinds} {s s' : Mgr} (h : Told o fl s) (a : Alloc) (pos act : Nat) (d : Dev) (ok : Bool) (hm : o.lazy = false → fl.man = true)
    (hv : act = 1 → fl.moved = true) (e : s.udev o a pos act d ok = some s') : Told o fl s' := by
  unfold Mgr.udev at e
  split at e
  · cases e; exact h
  · split at e
    · split at e
      · cases e; exact linkFree_told h _
      · have h1 : Told o fl (if act = 1 ∧ d.name.isSome then s.rename d.idx (d.name.getD []) a.text else s) := by
          split
          · rename_i hc; exact rename_told h _ _ _ (hv hc.1)
          · exact h
        generalize (if act = 1 ∧ d.name.isSome then s.rename d.idx (d.name.getD []) a.text else s) = s1 at *
        simp only at e
        split at e
        · cases e
          refine setManaged_told h1 _ _ _ ?_
          intro e
          apply hm
          cases hz : o.lazy with
          | false => rfl
          | true => simp [hz] at e
        · split at e
          · cases e
          · split at e
            · rename_i hc; cases e; exact setManaged_told h1 _ _ _ (fun _ => hm hc.2)
            · cases e; exact h1
    · split at e
      · cases e; exact h
      · cases e; exact addDev_told h _ _ _ _ hm

theorem status_told {o : Opts} {fl : Kinds} {s : Mgr} (h : Told o fl s) (i : Nat) (w : Bool) : Told o fl (s.status i w) := by
  have hinv := status_inv h.inv i w
  unfold Mgr.status at *
  cases hl : s.find i with
  | none => exact h
  | some l =>
    simp only [hl] at hinv ⊢
    split
    · rename_i h1
      rw [if_pos h1] at hinv
      refine told_step h.inv h.tell _ rfl hinv h.conf ?_
      cases w with
      | false => exact ⟨Or.inl ⟨quiet l, vis_link hl, rfl⟩, trivial⟩
      | true => exact ⟨Or.inl ⟨quiet l, vis_link hl, rfl⟩, Or.inl ⟨quiet l, vis_link hl, rfl⟩, trivial⟩
    · exact h

theorem mute_start (i : Nat) (ps : List Peer) : ∀ x ∈ startPeers i ps, mute x = true := by
  intro x hx
  obtain ⟨p, _, rfl⟩ := List.mem_map.mp hx
  rfl

theorem started_told {o : Opts} {fl : Kinds} {s : Mgr} (h : Told o fl s) (i : Nat) : Told o fl (s.started o i) := by
  have hinv := started_inv o h.inv i
  unfold Mgr.started at *
  cases hl : s.find i with
  | none => exact h
  | some l =>
    simp only [hl] at hinv ⊢
    split
    · exact h
    · rename_i h1
      rw [if_neg h1] at hinv
      rw [if_pos (good_of h.inv.shape hl).pub] at hinv ⊢
      refine told_step h.inv h.tell _ rfl hinv ?_ (tell_mute _ _ (mute_start _ _))
      apply conf_update h.conf
      intro l' hl' _
      have := h.conf l' hl'
      exact ⟨this.methods, this.driver, this.intent, this.man, this.iface, this.nop2p⟩

theorem peerNewAt_ok {o : Opts} {fl : Kinds} {l : Link} (h : LinkOk o fl l) (c c' : Nat) (a : Alloc) (pos : Nat) (mac : List Byte) : LinkOk o fl (peerNewAt c c' a pos mac l) := by
  unfold peerNewAt
  split
  · exact h
  · split
    · split
      · exact ⟨h.methods, h.driver, h.intent, h.man, h.iface, h.nop2p⟩
      · exact ⟨h.methods, h.driver, h.intent, h.man, h.iface, h.nop2p⟩
    · exact h

theorem peer_told {o : Opts} {fl : Kinds} (zx : Bool) {s : Mgr} (h : Told o fl s) (a : Alloc) (pos i : Nat) (text : List Byte) (running : Bool) : Told o fl (s.peer zx a pos i text running) := by
  have hinv := peer_inv zx h.inv a pos i text running
  unfold Mgr.peer at *
  cases hl : s.find i with
  | none => exact h
  | some l =>
    simp only [hl] at hinv ⊢
    split
    · exact h
    · rename_i h1
      rw [if_neg h1] at hinv
      generalize Mac.format (Mac.scan zx 6 text) = mac at *
      have hc : ∀ l ∈ (s.update i (·.peerNew a pos mac)).links, LinkOk o fl l := by
        apply conf_update h.conf
        intro l' hl' _
        rw [peerNew_at]
        exact peerNewAt_ok (h.conf l' hl') _ _ _ _ _
      split
      · rename_i h2
        rw [if_pos h2] at hinv
        refine told_step h.inv h.tell _ rfl hinv ?_ (tell_mute _ _ (mute_start _ _))
        apply conf_update hc
        intro l' hl' _
        have := hc l' hl'
        exact ⟨this.methods, this.driver, this.intent, this.man, this.iface, this.nop2p⟩
      · rename_i h2
        rw [if_neg h2] at hinv
        exact told_step h.inv h.tell [] (by simp [Mgr.update]) hinv hc trivial

theorem gone_told {o : Opts} {fl : Kinds} {s : Mgr} (h : Told o fl s) (i : Nat) (mac : List Byte) : Told o fl (s.gone i mac) := by
  have hinv := gone_inv h.inv i mac
  unfold Mgr.gone at *
  cases hl : s.find i with
  | none => exact h
  | some l =>
    simp only [hl] at hinv ⊢
    cases hp : l.peers.find? (fun p => p.mac == mac) with
    | none => exact h
    | some p =>
      simp only [hp] at hinv ⊢
      refine told_step h.inv h.tell _ rfl hinv ?_ (tell_mute _ _ ?_)
      · apply conf_update h.conf
        intro l' hl' _
        have := h.conf l' hl'
        exact ⟨this.methods, this.driver, this.intent, this.man, this.iface, this.nop2p⟩
      · intro x hx
        split at hx
        · rw [List.mem_singleton.mp hx]; rfl
        · cases hx

/-- What an event may be in a history of these kinds. -/
def Fits (o : Opts) (fl : Kinds) : Op → Prop
  | .scan .. => o.lazy = false → fl.man = true
  | .udev _ _ act _ _ => (o.lazy = false → fl.man = true) ∧ (act = 1 → fl.moved = true)
  | .manage _ set _ => set = true → fl.man = true
  | .friendly .. => fl.named = true
  | _ => True

theorem step_told {o : Opts} {fl : Kinds} {zx : Bool} {s s' : Mgr} (h : Told o fl s) {e : Op} (hf : Fits o fl e) (hs : step o zx s e = some s') : Told o fl s' := by
  cases e with
  | scan a pos d ok => cases hs; exact addDev_told h _ _ _ _ hf
  | udev a pos act d ok => exact udev_told h _ _ _ _ _ hf.1 hf.2 hs
  | manage idx set ok => cases hs; exact setManaged_told h _ _ _ hf
  | friendly idx name ok ready sent => cases hs; exact setFriendly_told h _ _ _ _ _ hf
  | wfd idx val ok ready sent => cases hs; exact setWfd_told h _ _ _ _ _
  | status idx w => cases hs; exact status_told h _ _
  | started idx => cases hs; exact started_told h _
  | lost idx =>
    cases hs
    cases hl : s.find idx with
    | none => exact h
    | some l =>
      simp only
      split
      · exact dropPeers_told h hl
      · exact h
  | peer a pos idx text running => cases hs; exact peer_told zx h _ _ _ _ _
  | gone idx mac => cases hs; exact gone_told h _ _

theorem run_told {o : Opts} {fl : Kinds} {zx : Bool} {s s' : Mgr} (h : Told o fl s) {es : List Op} (hf : ∀ e ∈ es, Fits o fl e) (hs : run o zx s es = some s') : Told o fl s' := by
  induction es generalizing s with
  | nil => cases hs; exact h
  | cons e t ih =>
    simp only [run, Option.bind_eq_some_iff] at hs
    obtain ⟨s1, h1, h2⟩ := hs
    exact ih (step_told h (hf e (by simp)) h1) (fun x hx => hf x (by simp [hx])) h2

theorem told_init (o : Opts) (fl : Kinds) : Told o fl {} := ⟨inv_init, (by intro l h; cases h), trivial⟩

theorem fits_all (o : Opts) (e : Op) : Fits o ⟨true, true, true⟩ e := by
  cases e <;> simp [Fits]

/-! ### Without names set by users -/

/-- A signal that gives no name. -/
def unnamed : Sig → Prop
  | .added _ v => ∀ v', v = some v' → v'.friendly = none
  | .changed _ (.friendly _) => False
  | _ => True

theorem seen_unnamed (log : List Sig) (ob : Obj) (k : Option (Option View)) (h : ∀ g ∈ log, unnamed g)
    (hk : ∀ v, k = some (some v) → v.friendly = none) (v : View) (hv : log.foldl (see ob) k = some (some v)) : v.friendly = none := by
  induction log generalizing k with
  | nil => exact hk v hv
  | cons g t ih =>
    refine ih (see ob k g) (fun x hx => h x (by simp [hx])) ?_ hv
    intro v hv
    have hg := h g (by simp)
    cases g with
    | added ob' w =>
      simp only [see] at hv
      split at hv
      · cases hv; exact hg v rfl
      · exact hk v hv
    | removed ob' =>
      simp only [see] at hv
      split at hv
      · cases hv
      · exact hk v hv
    | changed ob' x =>
      simp only [see] at hv
      split at hv
      · cases k with
        | none => cases hv
        | some w =>
          cases w with
          | none => cases hv
          | some w =>
            simp only [Option.map_some, Option.some.injEq] at hv
            subst hv
            have := hk w rfl
            cases x with
            | name n => exact this
            | friendly n => exact absurd hg id
            | wfd n => exact this
      · exact hk v hv
    | _ => exact hk v hv

theorem told_unnamed {o : Opts} {fl : Kinds} (hn : fl.named = false) {log : List Sig} (h : tellFrom o fl (fun _ => none) log) : ∀ g ∈ log, unnamed g := by
  intro g hg
  obtain ⟨a, b, e⟩ := List.append_of_mem hg
  rw [e] at h
  have := tellFrom_at h
  cases g with
  | added ob v => exact fun v' e => (this v' e).1
  | changed ob v =>
    cases v with
    | friendly n => have this : fl.named = true := this; rw [hn] at this; cases this
    | _ => trivial
  | _ => trivial

/-! ### The configuration file -/

theorem lines_line (x y : List Byte) (h : (10 : Byte) ∉ x) : lines (x ++ 10 :: y) = x :: lines y := by
  induction x with
  | nil => simp [lines]
  | cons c t ih =>
    simp only [List.mem_cons, not_or] at h
    have hc : c ≠ 10 := fun e => h.1 e.symm
    rw [List.cons_append, lines, if_neg hc, ih h.2]

theorem setting_eq (k v : List Byte) (h0 : k.head? ≠ some (ch '#')) (hne : k ≠ []) (h : ch '=' ∉ k) : setting (k ++ ch '=' :: v) = some (k, v) := by
  have hs : ∀ k : List Byte, ch '=' ∉ k → (k ++ ch '=' :: v).takeWhile (· ≠ ch '=') = k ∧ (k ++ ch '=' :: v).dropWhile (· ≠ ch '=') = ch '=' :: v := by
    intro k h
    induction k with
    | nil => simp
    | cons c t ih =>
      simp only [List.mem_cons, not_or] at h
      have hc : c ≠ ch '=' := fun e => h.1 e.symm
      have := ih h.2
      simp [hc]
      simpa using this
  unfold setting
  rw [if_neg, if_pos (by simp), (hs k h).1, (hs k h).2]
  · rfl
  · cases k with
    | nil => exact absurd rfl hne
    | cons c t => exact h0

theorem settings_line (k v y : List Byte) (h0 : k.head? ≠ some (ch '#')) (hne : k ≠ []) (h : ch '=' ∉ k) (hk : (10 : Byte) ∉ k) (hv : (10 : Byte) ∉ v) :
    settings (k ++ ch '=' :: v ++ 10 :: y) = (k, v) :: settings y := by
  unfold settings
  rw [lines_line]
  · rw [List.filterMap_cons, setting_eq k v h0 hne h]
  · intro hm
    rcases List.mem_append.mp hm with h | h
    · exact hk h
    · rcases List.mem_cons.mp h with h | h
      · revert h; decide
      · exact hv h

theorem settings_comment (x y : List Byte) (h : x.head? = some (ch '#')) (hx : (10 : Byte) ∉ x) : settings (x ++ 10 :: y) = settings y := by
  unfold settings
  rw [lines_line x y hx, List.filterMap_cons]
  unfold setting
  rw [if_pos h]

theorem dropLast_last {l : List Byte} {x : Byte} (h : l.getLast? = some x) : l = l.dropLast ++ [x] := by
  cases l using snocInd with
  | nil => cases h
  | snoc t y =>
    simp at h
    simp [h]

/-- One line of the configuration. -/
theorem key_line (k : String) (v y : List Byte) (h : ((bytes k).getLast? = some (ch '=')) := by decide) :
    bytes k ++ v ++ bytes "\n" ++ y = (bytes k).dropLast ++ ch '=' :: v ++ 10 :: y := by
  have hb : bytes k = (bytes k).dropLast ++ [ch '='] := dropLast_last h
  have hn : bytes "\n" = [10] := by decide
  rw [hn]
  conv => lhs; rw [hb]
  simp

theorem config_settings (l : Link) (hf : ∀ n, l.friendly = some n → (10 : Byte) ∉ n) (hm : ∀ n, l.methods = some n → (10 : Byte) ∉ n) (hd : ∀ n, l.driver = some n → (10 : Byte) ∉ n) :
    settings (config l) = [(bytes "device_name", l.friendly.getD (bytes "unknown")), (bytes "device_type", bytes "1-0050F204-1"), (bytes "config_methods", l.methods.getD (bytes "pbc")),
      (bytes "driver_param", l.driver.getD []), (bytes "ap_scan", bytes "1"), (bytes "p2p_go_intent", dec l.intent)] := by
  have hf' : (10 : Byte) ∉ l.friendly.getD (bytes "unknown") := by
    cases h : l.friendly with
    | none => decide
    | some n => exact hf n h
  have hm' : (10 : Byte) ∉ l.methods.getD (bytes "pbc") := by
    cases h : l.methods with
    | none => decide
    | some n => exact hm n h
  have hd' : (10 : Byte) ∉ l.driver.getD [] := by
    cases h : l.driver with
    | none => simp
    | some n => exact hd n h
  have hi : (10 : Byte) ∉ dec l.intent := by
    intro h
    have := (dec_digits _ _ h).1
    revert this; decide
  unfold config
  simp only [List.append_assoc]
  have e1 : ∀ y, bytes "# Generated configuration - DO NOT EDIT!\n" ++ y = bytes "# Generated configuration - DO NOT EDIT!" ++ 10 :: y := by
    intro y
    have : bytes "# Generated configuration - DO NOT EDIT!\n" = bytes "# Generated configuration - DO NOT EDIT!" ++ [10] := by decide
    rw [this]; simp
  rw [e1, settings_comment _ _ (by decide) (by decide)]
  have key : ∀ (k : String) (v y : List Byte), (bytes k).getLast? = some (ch '=') → (bytes k).dropLast.head? ≠ some (ch '#') → (bytes k).dropLast ≠ [] → ch '=' ∉ (bytes k).dropLast →
      (10 : Byte) ∉ (bytes k).dropLast → (10 : Byte) ∉ v → settings (bytes k ++ (v ++ (bytes "\n" ++ y))) = ((bytes k).dropLast, v) :: settings y := by
    intro k v y h1 h2 h3 h4 h5 h6
    have := key_line k v y h1
    simp only [List.append_assoc] at this
    rw [this]
    have := settings_line (bytes k).dropLast v y h2 h3 h4 h5 h6
    simp only [List.append_assoc] at this
    exact this
  rw [key _ _ _ (by decide) (by decide) (by decide) (by decide) (by decide) hf']
  rw [key _ _ _ (by decide) (by decide) (by decide) (by decide) (by decide) (by decide)]
  rw [key _ _ _ (by decide) (by decide) (by decide) (by decide) (by decide) hm']
  rw [key _ _ _ (by decide) (by decide) (by decide) (by decide) (by decide) hd']
  rw [key _ _ _ (by decide) (by decide) (by decide) (by decide) (by decide) (by decide)]
  rw [key _ _ _ (by decide) (by decide) (by decide) (by decide) (by decide) hi]
  have : settings (bytes "# End of configuration\n") = [] := by decide +kernel
  rw [this]
  have d1 : (bytes "device_name=").dropLast = bytes "device_name" := by decide
  have d2 : (bytes "device_type=").dropLast = bytes "device_type" := by decide
  have d3 : (bytes "config_methods=").dropLast = bytes "config_methods" := by decide
  have d4 : (bytes "driver_param=").dropLast = bytes "driver_param" := by decide
  have d5 : (bytes "ap_scan=").dropLast = bytes "ap_scan" := by decide
  have d6 : (bytes "p2p_go_intent=").dropLast = bytes "p2p_go_intent" := by decide
  rw [d1, d2, d3, d4, d5, d6]

end Verif.Wifid
