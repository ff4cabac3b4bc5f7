import Verif.Spec.Wifid
/-! # Helper lemmas for links and peers -/
namespace Verif.Wifid
open Verif.C Spec

/-! ### Counters -/

theorem inc_mod (n : Nat) : inc (n % W64) = (n + 1) % W64 := by
  have hW : W64 = 18446744073709551616 := rfl
  unfold inc; rw [hW]; omega

theorem decr_mod (n : Nat) : decr ((n + 1) % W64) = n % W64 := by
  have hW : W64 = 18446744073709551616 := rfl
  unfold decr; rw [hW]; omega

attribute [local irreducible] inc decr W64

/-! ### Lookups -/

theorem find_idx {s : Mgr} {i : Nat} {l : Link} (h : s.find i = some l) : l.idx = i ∧ l ∈ s.links := by
  unfold Mgr.find at h
  exact ⟨by simpa using List.find?_some h, List.mem_of_find?_eq_some h⟩

theorem find_of_mem {s : Mgr} (nd : (s.links.map (·.idx)).Nodup) {l : Link} (h : l ∈ s.links) : s.find l.idx = some l := by
  unfold Mgr.find
  generalize s.links = L at *
  induction L with
  | nil => cases h
  | cons x t ih =>
    simp only [List.map_cons, List.nodup_cons] at nd
    rcases List.mem_cons.mp h with rfl | h
    · simp
    · rw [List.find?_cons_of_neg]
      · exact ih nd.2 h
      · intro e
        have e : x.idx = l.idx := by simpa using e
        exact nd.1 (by rw [e]; exact List.mem_map_of_mem h)

theorem find_emit (s : Mgr) (g : List Sig) (j : Nat) : (s.emit g).find j = s.find j := rfl

theorem find_update (s : Mgr) (i j : Nat) (f : Link → Link) (hf : ∀ l, (f l).idx = l.idx) :
    (s.update i f).find j = if j = i then (s.find i).map f else s.find j := by
  unfold Mgr.find Mgr.update
  simp only
  induction s.links with
  | nil => simp
  | cons x t ih =>
    rw [List.map_cons, List.find?_cons, List.find?_cons (a := x) (p := fun l => l.idx == j), List.find?_cons (a := x) (p := fun l => l.idx == i)]
    by_cases hx : x.idx = i
    · simp only [hx, if_true, hf]
      by_cases hj : j = i
      · subst hj; simp
      · have : (i == j) = false := by simp; exact fun e => hj e.symm
        simp only [this, hj, if_false, beq_self_eq_true] at ih ⊢
        exact ih
    · simp only [hx, if_false]
      by_cases hj : x.idx = j
      · subst hj
        simp [hx]
      · have h1 : (x.idx == j) = false := by simpa using hj
        have h2 : (x.idx == i) = false := by simpa using hx
        simp only [h1, h2]
        exact ih

theorem find?_place {α : Type} (p : α → Bool) (pos : Nat) (x : α) (L : List α) (h : ∀ y ∈ L, p y = true → p x = false) :
    (place pos x L).find? p = if p x then some x else L.find? p := by
  unfold place
  rw [List.find?_append, List.find?_cons]
  have e : (L.take pos ++ L.drop pos) = L := List.take_append_drop pos L
  by_cases hx : p x = true
  · rw [hx]
    have : (L.take pos).find? p = none := by
      apply List.find?_eq_none.mpr
      intro y hy hpy
      have := h y (List.mem_of_mem_take hy) hpy
      rw [hx] at this; cases this
    rw [this]; rfl
  · have hx : p x = false := by simpa using hx
    rw [hx, ← List.find?_append, e]; rfl

theorem place_perm {α : Type} (pos : Nat) (x : α) (L : List α) : (place pos x L).Perm (x :: L) := by
  unfold place
  have := List.perm_middle (a := x) (l₁ := L.take pos) (l₂ := L.drop pos)
  rw [List.take_append_drop] at this
  exact this

theorem find?_filter_ne (i j : Nat) (L : List Link) : (L.filter (fun l => l.idx ≠ i)).find? (fun l => l.idx == j) = if j = i then none else L.find? (fun l => l.idx == j) := by
  induction L with
  | nil => simp
  | cons x t ih =>
    rw [List.filter_cons]
    split
    · rename_i h
      rw [List.find?_cons, List.find?_cons, ih]
      by_cases hj : x.idx = j
      · subst hj
        have h : x.idx ≠ i := by simpa using h
        simp [h]
      · have : (x.idx == j) = false := by simpa using hj
        simp only [this]
    · rename_i h
      have h : x.idx = i := by simpa using h
      rw [ih]
      by_cases hj : j = i
      · simp [hj]
      · have : (x.idx == j) = false := by rw [h]; simp; exact fun e => hj e.symm
        rw [List.find?_cons, this]

/-! ### The invariant -/

/-- What a client can know of the peers of a link. -/
def peerVis (ps : List Peer) (m : List Byte) : Option (Option View) := (ps.find? fun p => p.mac == m).bind fun p => if p.pub then some none else none

/-- What a client can know of a link: that it is managed is never told. -/
def quiet (l : Link) : View := { l.view with managed := false }

/-- What a client can know of the objects. -/
def vis (s : Mgr) : Obj → Option (Option View)
  | .link i => (s.find i).map fun l => some (quiet l)
  | .peer m i => (s.find i).bind fun l => peerVis l.peers m

/-- Is a MAC address as `reformat_mac` makes them. -/
def Canon (m : List Byte) : Prop := ∃ bs : List Byte, bs.length = 6 ∧ m = Mac.format bs

structure Good (l : Link) : Prop where
  idx : l.idx ≠ 0
  pub : l.pub = true
  nd : (l.peers.map (·.mac)).Nodup
  canon : ∀ p ∈ l.peers, Canon p.mac
  cnt : l.cnt = l.peers.length % W64
  none : l.managed = false → l.peers = []
  intent : l.intent ≤ 15

structure Shape (s : Mgr) : Prop where
  nd : (s.links.map (·.idx)).Nodup
  cnt : s.cnt = s.links.length % W64
  good : ∀ l ∈ s.links, Good l

/-- Signals make sense one after the other. -/
def soundFrom : (Obj → Option (Option View)) → List Sig → Prop
  | _, [] => True
  | k, g :: t => fits k g ∧ soundFrom (fun o => see o (k o) g) t

theorem soundFrom_append (k : Obj → Option (Option View)) (a b : List Sig) :
    soundFrom k (a ++ b) ↔ soundFrom k a ∧ soundFrom (fun o => a.foldl (see o) (k o)) b := by
  induction a generalizing k with
  | nil => simp [soundFrom]
  | cons x t ih => simp only [List.cons_append, soundFrom, ih, List.foldl_cons, and_assoc]

theorem sound_iff (log : List Sig) : sound log ↔ soundFrom (fun _ => none) log := by
  unfold sound
  constructor
  · intro h
    induction log using snocInd with
    | nil => trivial
    | snoc t x ih =>
      rw [soundFrom_append]
      refine ⟨ih fun a g b e => h a g (b ++ [x]) (by rw [e]; simp), ?_, trivial⟩
      exact h t x [] rfl
  · intro h a g b e
    subst e
    rw [soundFrom_append] at h
    exact h.2.1

structure Inv (s : Mgr) : Prop where
  shape : Shape s
  track : ∀ o, seen s.log o = vis s o
  snd : soundFrom (fun _ => none) s.log

/-- One step as seen by a client. -/
theorem inv_step {s s' : Mgr} (h : Inv s) (g : List Sig) (hlog : s'.log = s.log ++ g) (hshape : Shape s')
    (hvis : ∀ o, g.foldl (see o) (vis s o) = vis s' o) (hs : soundFrom (vis s) g) : Inv s' := by
  have e : (fun o => s.log.foldl (see o) none) = vis s := funext h.track
  refine ⟨hshape, ?_, ?_⟩
  · intro o
    unfold seen
    rw [hlog, List.foldl_append, ← hvis]
    congr 1
    exact h.track o
  · rw [hlog, soundFrom_append, e]
    exact ⟨h.snd, hs⟩

theorem vis_update {s : Mgr} {i : Nat} {l : Link} (hl : s.find i = some l) (f : Link → Link) (hf : ∀ l, (f l).idx = l.idx) (o : Obj) :
    vis (s.update i f) o = match o with
      | .link j => if j = i then some (some (quiet (f l))) else vis s o
      | .peer m j => if j = i then peerVis (f l).peers m else vis s o := by
  cases o with
  | link j =>
    simp only [vis, find_update s i j f hf]
    split
    · rw [hl]; rfl
    · rfl
  | peer m j =>
    simp only [vis, find_update s i j f hf]
    split
    · rw [hl]; rfl
    · rfl

theorem vis_emit (s : Mgr) (g : List Sig) (o : Obj) : vis (s.emit g) o = vis s o := by cases o <;> rfl

theorem vis_link {s : Mgr} {i : Nat} {l : Link} (hl : s.find i = some l) : vis s (.link i) = some (some (quiet l)) := by
  simp [vis, hl]

theorem vis_peer {s : Mgr} {i : Nat} {l : Link} (hl : s.find i = some l) (m : List Byte) : vis s (.peer m i) = peerVis l.peers m := by
  simp [vis, hl]

/-- What is visible does not change if a link keeps its properties and peers. -/
theorem vis_same {s : Mgr} {i : Nat} {l : Link} (hl : s.find i = some l) (f : Link → Link) (hf : ∀ l, (f l).idx = l.idx)
    (h1 : quiet (f l) = quiet l) (h2 : ∀ m, peerVis (f l).peers m = peerVis l.peers m) (o : Obj) : vis (s.update i f) o = vis s o := by
  rw [vis_update hl f hf]
  cases o with
  | link j =>
    simp only
    split
    · rename_i e; subst e; rw [h1, vis_link hl]
    · rfl
  | peer m j =>
    simp only
    split
    · rename_i e; subst e; rw [h2, vis_peer hl]
    · rfl

theorem shape_emit {s : Mgr} (h : Shape s) (g : List Sig) : Shape (s.emit g) := ⟨h.nd, h.cnt, h.good⟩

theorem shape_update {s : Mgr} (h : Shape s) (i : Nat) (f : Link → Link) (hf : ∀ l, (f l).idx = l.idx)
    (hg : ∀ l, s.find i = some l → Good (f l)) : Shape (s.update i f) := by
  have hmap : ∀ L : List Link, (L.map fun l => if l.idx = i then f l else l).map (·.idx) = L.map (·.idx) := by
    intro L
    rw [List.map_map]
    apply List.map_congr_left
    intro l _
    simp only [Function.comp]
    split <;> simp [hf]
  refine ⟨?_, ?_, ?_⟩
  · show ((s.links.map fun l => if l.idx = i then f l else l).map (·.idx)).Nodup
    rw [hmap]; exact h.nd
  · show s.cnt = (s.links.map fun l => if l.idx = i then f l else l).length % W64
    rw [List.length_map]; exact h.cnt
  · intro l hl
    obtain ⟨l0, h0, rfl⟩ := List.mem_map.mp hl
    split
    · rename_i e
      exact hg l0 (by rw [← e]; exact find_of_mem h.nd h0)
    · exact h.good l0 h0

theorem good_of {s : Mgr} (h : Shape s) {i : Nat} {l : Link} (hl : s.find i = some l) : Good l := h.good l (find_idx hl).2

/-! ### Signals about peers -/

theorem stop_removed (i : Nat) (ps : List Peer) (c : Nat) (g : Sig) (h : g ∈ (stopPeers i ps c).1) : ∃ p ∈ ps, p.pub = true ∧ g = .removed (.peer p.mac i) := by
  induction ps generalizing c with
  | nil => cases h
  | cons p t ih =>
    simp only [stopPeers] at h
    rcases List.mem_append.mp h with h | h
    · split at h
      · rename_i hp
        exact ⟨p, by simp, hp, by simpa using h⟩
      · cases h
    · obtain ⟨q, hq, h⟩ := ih _ h
      exact ⟨q, by simp [hq], h⟩

theorem stop_all (i : Nat) (ps : List Peer) (c : Nat) (p : Peer) (hp : p ∈ ps) (hpub : p.pub = true) : Sig.removed (.peer p.mac i) ∈ (stopPeers i ps c).1 := by
  induction ps generalizing c with
  | nil => cases hp
  | cons q t ih =>
    simp only [stopPeers]
    rcases List.mem_cons.mp hp with rfl | hp
    · simp [hpub]
    · exact List.mem_append.mpr (Or.inr (ih _ hp))

theorem fold_removed (g : List Sig) (h : ∀ x ∈ g, ∃ o, x = .removed o) (o : Obj) (k : Option (Option View)) :
    g.foldl (see o) k = if Sig.removed o ∈ g then none else k := by
  induction g generalizing k with
  | nil => simp
  | cons x t ih =>
    obtain ⟨o', rfl⟩ := h x (by simp)
    rw [List.foldl_cons, ih (fun y hy => h y (by simp [hy]))]
    simp only [see]
    by_cases e : o' = o
    · subst e; simp
    · have : Sig.removed o ≠ Sig.removed o' := by intro e'; cases e'; exact e rfl
      simp [e, this]

theorem sound_removed (g : List Sig) (h : ∀ x ∈ g, ∃ m i, x = .removed (.peer m i) ∧ Canon m) (k : Obj → Option (Option View)) : soundFrom k g := by
  induction g generalizing k with
  | nil => trivial
  | cons x t ih =>
    obtain ⟨m, i, rfl, hc⟩ := h x (by simp)
    exact ⟨hc, ih (fun y hy => h y (by simp [hy])) _⟩

theorem stop_cons (i : Nat) (p : Peer) (t : List Peer) (c : Nat) : (stopPeers i (p :: t) c).2 = (stopPeers i t (decr c)).2 := by
  rw [stopPeers]

theorem stop_nil (i : Nat) (c : Nat) : (stopPeers i [] c).2 = c := by
  rw [stopPeers]

theorem decr_cons (c : Nat) (p : Peer) (t : List Peer) (h : c = (p::t).length % W64) : decr c = t.length % W64 := by
  subst h
  exact decr_mod _

theorem stop_cnt (i : Nat) (ps : List Peer) (c : Nat) (h : c = ps.length % W64) : (stopPeers i ps c).2 = 0 := by
  induction ps generalizing c with
  | nil => rw [stop_nil, h, List.length_nil, Nat.zero_mod]
  | cons p t ih => rw [stop_cons]; exact ih _ (decr_cons _ _ _ h)

theorem stop_only (i : Nat) (ps : List Peer) (c : Nat) : ∀ x ∈ (stopPeers i ps c).1, ∃ o, x = .removed o := by
  intro x hx
  obtain ⟨p, _, _, h⟩ := stop_removed i ps c x hx
  exact ⟨_, h⟩

theorem stop_peer (i : Nat) (ps : List Peer) (c : Nat) (hc : ∀ p ∈ ps, Canon p.mac) : ∀ x ∈ (stopPeers i ps c).1, ∃ m j, x = .removed (.peer m j) ∧ Canon m := by
  intro x hx
  obtain ⟨p, hp, _, h⟩ := stop_removed i ps c x hx
  exact ⟨_, _, h, hc p hp⟩

theorem peerVis_some {ps : List Peer} {m : List Byte} (h : peerVis ps m ≠ none) : ∃ p ∈ ps, p.mac = m ∧ p.pub = true := by
  unfold peerVis at h
  cases hf : ps.find? (fun p => p.mac == m) with
  | none => rw [hf] at h; exact absurd rfl h
  | some p =>
    rw [hf] at h
    refine ⟨p, List.mem_of_find?_eq_some hf, by simpa using List.find?_some hf, ?_⟩
    cases hp : p.pub with
    | true => rfl
    | false => simp [hp] at h

theorem dropPeers_inv {s : Mgr} (h : Inv s) {i : Nat} {l : Link} (hl : s.find i = some l) :
    Inv (s.dropPeers l) := by
  have hi := (find_idx hl).1
  subst hi
  refine inv_step h (stopPeers l.idx l.peers l.cnt).1 rfl ?_ ?_ (sound_removed _ (stop_peer _ _ _ (good_of h.shape hl).canon) _)
  · apply shape_emit
    apply shape_update h.shape
    · intro l; rfl
    · intro l' hl'
      have hg := good_of h.shape hl'
      exact ⟨hg.idx, hg.pub, by simp, by simp, by simp only [List.length_nil, Nat.zero_mod]; exact stop_cnt _ _ _ hg.cnt, fun _ => rfl, hg.intent⟩
  · intro o
    rw [fold_removed _ (stop_only _ _ _)]
    unfold Mgr.dropPeers
    rw [vis_emit, vis_update hl _ (by intro _; rfl)]
    cases o with
    | link j =>
      simp only
      rw [if_neg]
      · split
        · rename_i e; subst e; rw [vis_link hl]; rfl
        · rfl
      · intro hm
        obtain ⟨p, _, _, e⟩ := stop_removed _ _ _ _ hm
        cases e
    | peer m j =>
      simp only
      split
      · rename_i hm
        obtain ⟨p, _, _, e⟩ := stop_removed _ _ _ _ hm
        cases e
        rw [if_pos rfl]; rfl
      · rename_i hm
        split
        · rename_i e; subst e
          rw [vis_peer hl]
          show peerVis l.peers m = peerVis [] m
          cases hv : peerVis l.peers m with
          | none => rfl
          | some v =>
            exfalso
            obtain ⟨p, hp, rfl, hpub⟩ := peerVis_some (ps := l.peers) (m := m) (by rw [hv]; simp)
            exact hm (stop_all _ _ _ p hp hpub)
        · rfl

theorem find_dropPeers {s : Mgr} {i : Nat} {l : Link} (hl : s.find i = some l) (j : Nat) :
    (s.dropPeers l).find j = if j = i then some { l with peers := [], cnt := (stopPeers l.idx l.peers l.cnt).2 } else s.find j := by
  have hi := (find_idx hl).1
  subst hi
  unfold Mgr.dropPeers
  rw [find_emit, find_update _ _ _ _ (by intro _; rfl), hl]
  rfl

/-! ### Links -/

theorem quiet_managed (l : Link) (b : Bool) : quiet { l with managed := b } = quiet l := rfl

theorem setManaged_inv {s : Mgr} (h : Inv s) (i : Nat) (set ok : Bool) : Inv (s.setManaged i set ok) := by
  unfold Mgr.setManaged
  cases hl : s.find i with
  | none => exact h
  | some l =>
    simp only
    split
    · exact h
    · split
      · split
        · refine inv_step h [.config i (config l)] rfl ?_ ?_ ⟨?_, trivial⟩
          · apply shape_emit
            apply shape_update h.shape _ _ (by intro _; rfl)
            intro l' hl'
            have hg := good_of h.shape hl'
            exact ⟨hg.idx, hg.pub, hg.nd, hg.canon, hg.cnt, fun e => (by cases e), hg.intent⟩
          · intro o
            rw [vis_emit, vis_same hl _ (by intro _; rfl) (by rfl) (by intro _; rfl)]
            rfl
          · show (vis s (.link i)).isSome = true
            rw [vis_link hl]; rfl
        · exact h
      · have hd := dropPeers_inv h hl
        have hf := find_dropPeers hl i
        rw [if_pos rfl] at hf
        refine inv_step hd [] (by simp [Mgr.update]) ?_ ?_ trivial
        · apply shape_update hd.shape _ _ (by intro _; rfl)
          intro l' hl'
          have hg := good_of hd.shape hl'
          rw [hf] at hl'
          cases hl'
          exact ⟨hg.idx, hg.pub, hg.nd, hg.canon, hg.cnt, fun _ => rfl, hg.intent⟩
        · intro o
          rw [vis_same hf _ (by intro _; rfl) (by rfl) (by intro _; rfl)]
          rfl

theorem find_setManaged {s : Mgr} {i : Nat} {l : Link} (hs : Shape s) (hl : s.find i = some l) : ∃ l', (s.setManaged i false true).find i = some l' ∧ l'.peers = [] ∧ l'.managed = false := by
  unfold Mgr.setManaged
  rw [hl]
  simp only
  split
  · rename_i e
    exact ⟨l, hl, (good_of hs hl).none e, e⟩
  · rw [if_neg (by decide), find_update _ _ _ _ (by intro _; rfl), if_pos rfl, find_dropPeers hl, if_pos rfl]
    exact ⟨_, rfl, rfl, rfl⟩

theorem filter_one {L : List Link} (nd : (L.map (·.idx)).Nodup) {l : Link} (h : l ∈ L) : (L.filter (fun x => x.idx ≠ l.idx)).length + 1 = L.length := by
  induction L with
  | nil => cases h
  | cons x t ih =>
    simp only [List.map_cons, List.nodup_cons] at nd
    rw [List.filter_cons]
    rcases List.mem_cons.mp h with rfl | h
    · rw [if_neg (by simp), List.filter_eq_self.mpr]
      · rfl
      · intro y hy
        have : y.idx ≠ l.idx := by intro e; exact nd.1 (by rw [← e]; exact List.mem_map_of_mem hy)
        simpa using this
    · have : x.idx ≠ l.idx := by intro e; exact nd.1 (by rw [e]; exact List.mem_map_of_mem h)
      rw [if_pos (by simpa using this), List.length_cons, ih nd.2 h, List.length_cons]

theorem linkFree_inv {s : Mgr} (h : Inv s) (i : Nat) : Inv (s.linkFree i) := by
  unfold Mgr.linkFree
  cases hl : s.find i with
  | none => exact h
  | some l =>
    simp only
    have h1 := setManaged_inv h i false true
    obtain ⟨l', hl', hp', _⟩ := find_setManaged h.shape hl
    generalize s.setManaged i false true = s1 at *
    have hlen := filter_one h1.shape.nd (find_idx hl').2
    rw [(find_idx hl').1] at hlen
    refine inv_step h1 [.removed (.link i)] rfl ⟨?_, ?_, ?_⟩ ?_ ⟨fun m => by rw [vis_peer hl', hp']; rfl, trivial⟩
    · exact h1.shape.nd.sublist (List.Sublist.map _ List.filter_sublist)
    · show decr s1.cnt = (s1.links.filter (fun l => l.idx ≠ i)).length % W64
      rw [h1.shape.cnt, ← hlen, decr_mod]
    · intro x hx
      exact h1.shape.good x ((List.mem_filter.mp hx).1)
    · intro o
      have hf : ∀ j, Mgr.find { s1.emit [Sig.removed (.link i)] with links := (s1.emit [Sig.removed (.link i)]).links.filter (fun l => l.idx ≠ i), cnt := decr (s1.emit [Sig.removed (.link i)]).cnt } j = if j = i then none else s1.find j := by
        intro j
        exact find?_filter_ne i j s1.links
      cases o with
      | link j =>
        simp only [vis, hf, List.foldl_cons, List.foldl_nil, see]
        by_cases e : j = i
        · subst e; simp
        · have : Obj.link i ≠ Obj.link j := by intro e'; cases e'; exact e rfl
          simp [e, this]
      | peer m j =>
        simp only [vis, hf, List.foldl_cons, List.foldl_nil, see]
        by_cases e : j = i
        · subst e
          simp [hl', hp', peerVis]
        · simp [e]

theorem linkNew_inv {s : Mgr} (h : Inv s) (a : Alloc) (pos i : Nat) (name : List Byte) : Inv (s.linkNew a pos i name).1 := by
  unfold Mgr.linkNew
  split
  · exact h
  · rename_i h0
    split
    · exact h
    · rename_i hnone
      have hnone : s.find i = none := by
        cases hf : s.find i with
        | none => rfl
        | some x => rw [hf] at hnone; exact absurd rfl hnone
      split
      · exact h
      · split
        · have hne : ∀ y ∈ s.links, y.idx ≠ i := by
            intro y hy e
            have := List.find?_eq_none.mp hnone y hy
            exact this (by simpa using e)
          have hp := place_perm pos ({ idx := i, name := name } : Link) s.links
          refine inv_step h [.added (.link i) (some (Link.view { idx := i, name := name }))] rfl ⟨?_, ?_, ?_⟩ ?_ ⟨?_, trivial⟩
          · show ((place pos _ s.links).map (·.idx)).Nodup
            rw [(hp.map _).nodup_iff, List.map_cons, List.nodup_cons]
            refine ⟨?_, h.shape.nd⟩
            intro hm
            obtain ⟨y, hy, e⟩ := List.mem_map.mp hm
            exact hne y hy e
          · show inc s.cnt = (place pos _ s.links).length % W64
            rw [hp.length_eq, List.length_cons, h.shape.cnt, inc_mod]
          · intro x hx
            rcases List.mem_cons.mp (hp.mem_iff.mp hx) with rfl | hx
            · exact ⟨h0, rfl, by simp, by simp, by simp, fun _ => rfl, by simp⟩
            · exact h.shape.good x hx
          · intro o
            have hf : ∀ j, Mgr.find { links := place pos ({ idx := i, name := name } : Link) s.links, cnt := inc s.cnt, log := s.log } j = if j = i then some { idx := i, name := name } else s.find j := by
              intro j
              show List.find? _ (place pos _ s.links) = _
              rw [find?_place]
              · simp only [beq_iff_eq]
                by_cases e : j = i
                · subst e; simp
                · have : ¬ i = j := fun e' => e e'.symm
                  simp [e, this, Mgr.find]
              · intro y hy hyj
                have hyj : y.idx = j := by simpa using hyj
                have := hne y hy
                simp; intro e; exact this (by omega)
            rw [vis_emit]
            cases o with
            | link j =>
              simp only [vis, hf, List.foldl_cons, List.foldl_nil, see]
              by_cases e : j = i
              · subst e; simp [quiet, Link.view]
              · have : Obj.link i ≠ Obj.link j := by intro e'; cases e'; exact e rfl
                simp [e, this]
            | peer m j =>
              simp only [vis, hf, List.foldl_cons, List.foldl_nil, see]
              by_cases e : j = i
              · subst e
                simp [hnone, peerVis]
              · simp [e]
          · show vis s (.link i) = none ∧ _
            exact ⟨by simp [vis, hnone], _, rfl, rfl⟩
        · refine inv_step h [.removed (.link i)] rfl (shape_emit h.shape _) ?_ ⟨fun m => by simp [vis, hnone], trivial⟩
          intro o
          rw [vis_emit]
          simp only [List.foldl_cons, List.foldl_nil, see]
          split
          · rename_i e; subst e; simp [vis, hnone]
          · rfl

/-- A property of a link changes and is announced. -/
theorem property_inv {s : Mgr} (h : Inv s) {i : Nat} {l : Link} (hl : s.find i = some l) (f : Link → Link) (hf : ∀ l, (f l).idx = l.idx)
    (hp : (f l).peers = l.peers) (hg : Good (f l)) (x : Val) (hx : quiet (f l) = note (quiet l) x) (pre : List Sig)
    (hpre : pre = [] ∨ (∃ n, pre = [.device i n]) ∨ ∃ n, pre = [.subelem i n]) :
    Inv ((s.update i f).emit (pre ++ if l.pub then [.changed (.link i) x] else [])) := by
  rw [if_pos (good_of h.shape hl).pub]
  have hsome : (vis s (.link i)).isSome = true := by rw [vis_link hl]; rfl
  refine inv_step h _ rfl ?_ ?_ ?_
  · apply shape_emit
    apply shape_update h.shape _ _ hf
    intro l' hl'
    rw [hl] at hl'; cases hl'; exact hg
  · intro o
    have hpre' : ∀ k, (pre ++ [Sig.changed (.link i) x]).foldl (see o) k = see o k (.changed (.link i) x) := by
      intro k
      rcases hpre with rfl | ⟨n, rfl⟩ | ⟨n, rfl⟩ <;> rfl
    rw [hpre', vis_emit, vis_update hl f hf]
    cases o with
    | link j =>
      simp only [see]
      by_cases e : j = i
      · subst e; rw [vis_link hl]; simp [hx]
      · have : Obj.link i ≠ Obj.link j := by intro e'; cases e'; exact e rfl
        simp [e, this]
    | peer m j =>
      simp only [see]
      by_cases e : j = i
      · subst e; rw [vis_peer hl, hp]; simp
      · simp [e]
  · rcases hpre with rfl | ⟨n, rfl⟩ | ⟨n, rfl⟩
    · exact ⟨hsome, trivial⟩
    · exact ⟨hsome, hsome, trivial⟩
    · exact ⟨hsome, hsome, trivial⟩

theorem rename_inv {s : Mgr} (h : Inv s) (i : Nat) (name : List Byte) (ok : Bool) : Inv (s.rename i name ok) := by
  unfold Mgr.rename
  cases hl : s.find i with
  | none => exact h
  | some l =>
    simp only
    split
    · exact h
    · have hg := good_of h.shape hl
      exact property_inv h hl (fun l => { l with name := name }) (fun _ => rfl) rfl ⟨hg.idx, hg.pub, hg.nd, hg.canon, hg.cnt, hg.none, hg.intent⟩ (.name name) rfl [] (Or.inl rfl)

theorem setFriendly_inv {s : Mgr} (h : Inv s) (i : Nat) (name : List Byte) (ok ready sent : Bool) : Inv (s.setFriendly i name ok ready sent) := by
  unfold Mgr.setFriendly
  cases hl : s.find i with
  | none => exact h
  | some l =>
    simp only
    split
    · exact h
    · split
      · exact h
      · have hg := good_of h.shape hl
        refine property_inv h hl (fun l => { l with friendly := some name }) (fun _ => rfl) rfl ⟨hg.idx, hg.pub, hg.nd, hg.canon, hg.cnt, hg.none, hg.intent⟩ (.friendly (some name)) rfl _ ?_
        split
        · right; left; exact ⟨_, rfl⟩
        · left; rfl

theorem setWfd_inv {s : Mgr} (h : Inv s) (i : Nat) (val : List Byte) (ok ready sent : Bool) : Inv (s.setWfd i val ok ready sent) := by
  unfold Mgr.setWfd
  cases hl : s.find i with
  | none => exact h
  | some l =>
    simp only
    split
    · exact h
    · split
      · exact h
      · have hg := good_of h.shape hl
        refine property_inv h hl (fun l => { l with wfd := some val }) (fun _ => rfl) rfl ⟨hg.idx, hg.pub, hg.nd, hg.canon, hg.cnt, hg.none, hg.intent⟩ (.wfd (some val)) rfl _ ?_
        split
        · right; right; exact ⟨_, rfl⟩
        · left; rfl

/-- A link changes in nothing that can be seen. -/
theorem silent_inv {s : Mgr} (h : Inv s) (i : Nat) (f : Link → Link) (hf : ∀ l, (f l).idx = l.idx) (hq : ∀ l, quiet (f l) = quiet l)
    (hp : ∀ l, (f l).peers = l.peers) (hg : ∀ l, Good l → Good (f l)) : Inv (s.update i f) := by
  cases hl : s.find i with
  | none =>
    have : s.update i f = s := by
      unfold Mgr.update
      have : s.links.map (fun l => if l.idx = i then f l else l) = s.links := by
        conv => rhs; rw [← List.map_id s.links]
        apply List.map_congr_left
        intro l hm
        rw [if_neg]; · rfl
        intro e
        have := List.find?_eq_none.mp hl l hm
        exact this (by simpa using e)
      rw [this]
    rw [this]; exact h
  | some l =>
    refine inv_step h [] (by simp [Mgr.update]) ?_ ?_ trivial
    · apply shape_update h.shape _ _ hf
      intro l' hl'; exact hg _ (good_of h.shape hl')
    · intro o
      rw [vis_same hl f hf (hq l) (fun m => by rw [hp])]
      rfl

theorem setup_facts (o : Opts) (l : Link) : (((l.setMethods o.methods).setDriver o.driver).setIntent o.intent).idx = l.idx
    ∧ quiet (((l.setMethods o.methods).setDriver o.driver).setIntent o.intent) = quiet l
    ∧ (((l.setMethods o.methods).setDriver o.driver).setIntent o.intent).peers = l.peers
    ∧ (Good l → Good (((l.setMethods o.methods).setDriver o.driver).setIntent o.intent)) := by
  have h1 : ∀ l : Link, (l.setMethods o.methods).idx = l.idx ∧ quiet (l.setMethods o.methods) = quiet l ∧ (l.setMethods o.methods).peers = l.peers ∧ (Good l → Good (l.setMethods o.methods)) := by
    intro l; unfold Link.setMethods; split
    · exact ⟨rfl, rfl, rfl, fun h => ⟨h.idx, h.pub, h.nd, h.canon, h.cnt, h.none, h.intent⟩⟩
    · exact ⟨rfl, rfl, rfl, id⟩
  have h2 : ∀ l : Link, (l.setDriver o.driver).idx = l.idx ∧ quiet (l.setDriver o.driver) = quiet l ∧ (l.setDriver o.driver).peers = l.peers ∧ (Good l → Good (l.setDriver o.driver)) := by
    intro l; unfold Link.setDriver; split
    · exact ⟨rfl, rfl, rfl, fun h => ⟨h.idx, h.pub, h.nd, h.canon, h.cnt, h.none, h.intent⟩⟩
    · exact ⟨rfl, rfl, rfl, id⟩
  have h3 : ∀ l : Link, (l.setIntent o.intent).idx = l.idx ∧ quiet (l.setIntent o.intent) = quiet l ∧ (l.setIntent o.intent).peers = l.peers ∧ (Good l → Good (l.setIntent o.intent)) := by
    intro l; unfold Link.setIntent; split
    · exact ⟨rfl, rfl, rfl, id⟩
    · exact ⟨rfl, rfl, rfl, fun h => ⟨h.idx, h.pub, h.nd, h.canon, h.cnt, h.none, by show o.intent ≤ 15; omega⟩⟩
  obtain ⟨a1, a2, a3, a4⟩ := h1 l
  obtain ⟨b1, b2, b3, b4⟩ := h2 (l.setMethods o.methods)
  obtain ⟨c1, c2, c3, c4⟩ := h3 ((l.setMethods o.methods).setDriver o.driver)
  exact ⟨by rw [c1, b1, a1], by rw [c2, b2, a2], by rw [c3, b3, a3], fun h => c4 (b4 (a4 h))⟩

theorem addDev_inv (o : Opts) {s : Mgr} (h : Inv s) (a : Alloc) (pos : Nat) (d : Dev) (ok : Bool) : Inv (s.addDev o a pos d ok) := by
  unfold Mgr.addDev
  split
  · exact h
  · cases d.name with
    | none => exact h
    | some name =>
      simp only
      split
      · exact h
      · split
        · exact h
        · have h1 := linkNew_inv h a pos d.idx name
          generalize s.linkNew a pos d.idx name = r at *
          split
          · exact h1
          · have h2 : Inv (if o.host.isSome ∧ ((r.1.find d.idx).any (·.managed)) = true then r.1.setFriendly d.idx (o.host.getD []) true false true else r.1) := by
              split
              · exact setFriendly_inv h1 _ _ _ _ _
              · exact h1
            generalize (if o.host.isSome ∧ ((r.1.find d.idx).any (·.managed)) = true then r.1.setFriendly d.idx (o.host.getD []) true false true else r.1) = s2 at *
            have h3 : Inv (s2.update d.idx fun l => ((l.setMethods o.methods).setDriver o.driver).setIntent o.intent) :=
              silent_inv h2 _ _ (fun l => (setup_facts o l).1) (fun l => (setup_facts o l).2.1) (fun l => (setup_facts o l).2.2.1) (fun l => (setup_facts o l).2.2.2)
            generalize (if o.rely = true then d.tag && !o.lazy else !o.lazy) = m
            cases m
            · exact h3
            · exact setManaged_inv h3 _ _ _

theorem udev_inv (o : Opts) {s s' : Mgr} (h : Inv s) (a : Alloc) (pos act : Nat) (d : Dev) (ok : Bool) (e : s.udev o a pos act d ok = some s') : Inv s' := by
  unfold Mgr.udev at e
  split at e
  · cases e; exact h
  · split at e
    · split at e
      · cases e; exact linkFree_inv h _
      · have h1 : Inv (if act = 1 ∧ d.name.isSome then s.rename d.idx (d.name.getD []) a.text else s) := by
          split
          · exact rename_inv h _ _ _
          · exact h
        generalize (if act = 1 ∧ d.name.isSome then s.rename d.idx (d.name.getD []) a.text else s) = s1 at *
        simp only at e
        split at e
        · cases e; exact setManaged_inv h1 _ _ _
        · split at e
          · cases e
          · split at e
            · cases e; exact setManaged_inv h1 _ _ _
            · cases e; exact h1
    · split at e
      · cases e; exact h
      · cases e; exact addDev_inv o h _ _ _ _

theorem status_inv {s : Mgr} (h : Inv s) (i : Nat) (w : Bool) : Inv (s.status i w) := by
  unfold Mgr.status
  cases hl : s.find i with
  | none => exact h
  | some l =>
    simp only
    have hsome : (vis s (.link i)).isSome = true := by rw [vis_link hl]; rfl
    split
    · refine inv_step h _ rfl (shape_emit h.shape _) ?_ ?_
      · intro o
        rw [vis_emit]
        cases w <;> rfl
      · cases w
        · exact ⟨hsome, trivial⟩
        · exact ⟨hsome, hsome, trivial⟩
    · exact h

/-! ### Peers -/

theorem fold_start (i : Nat) (ps : List Peer) (o : Obj) (k : Option (Option View)) :
    (startPeers i ps).foldl (see o) k = match o with
      | .link _ => k
      | .peer m j => if j = i ∧ (∃ p ∈ ps, p.mac = m ∧ p.pub = false) then some none else k := by
  unfold startPeers
  induction ps generalizing k with
  | nil => cases o <;> simp
  | cons p t ih =>
    rw [List.filter_cons]
    cases hp : p.pub with
    | true =>
      simp only [Bool.not_true, Bool.false_eq_true, if_false]
      rw [ih]
      cases o with
      | link _ => rfl
      | peer m j => simp [hp]
    | false =>
      simp only [Bool.not_false, if_true, List.map_cons, List.foldl_cons]
      rw [ih]
      cases o with
      | link _ => simp [see]
      | peer m j =>
        simp only [see, Obj.peer.injEq]
        by_cases e : j = i
        · subst e
          by_cases em : p.mac = m
          · subst em; simp [hp]
          · simp [em]
        · have : ¬ i = j := fun e' => e e'.symm
          simp [e, this]

theorem sound_start (i : Nat) (ps : List Peer) (nd : (ps.map (·.mac)).Nodup) (k : Obj → Option (Option View))
    (hk : ∀ p ∈ ps, p.pub = false → k (.peer p.mac i) = none) (hi : (k (.link i)).isSome = true) (hc : ∀ p ∈ ps, Canon p.mac) :
    soundFrom k (startPeers i ps) := by
  unfold startPeers
  induction ps generalizing k with
  | nil => trivial
  | cons p t ih =>
    simp only [List.map_cons, List.nodup_cons] at nd
    rw [List.filter_cons]
    cases hp : p.pub with
    | true =>
      simp only [Bool.not_true, Bool.false_eq_true, if_false]
      exact ih nd.2 k (fun q hq => hk q (by simp [hq])) hi (fun q hq => hc q (by simp [hq]))
    | false =>
      simp only [Bool.not_false, if_true, List.map_cons]
      refine ⟨⟨hk p (by simp) hp, rfl, hi, hc p (by simp)⟩, ih nd.2 _ ?_ (by simpa [see] using hi) (fun q hq => hc q (by simp [hq]))⟩
      intro q hq hqp
      have : q.mac ≠ p.mac := by intro e; exact nd.1 (by rw [← e]; exact List.mem_map_of_mem hq)
      have h2 : Obj.peer p.mac i ≠ Obj.peer q.mac i := by intro e; injection e with e1 _; exact this e1.symm
      simp only [see, h2, if_false]
      exact hk q (by simp [hq]) hqp

theorem peer_find {ps : List Peer} (nd : (ps.map (·.mac)).Nodup) {p : Peer} (h : p ∈ ps) : ps.find? (fun q => q.mac == p.mac) = some p := by
  induction ps with
  | nil => cases h
  | cons x t ih =>
    simp only [List.map_cons, List.nodup_cons] at nd
    rcases List.mem_cons.mp h with rfl | h
    · simp
    · rw [List.find?_cons_of_neg]
      · exact ih nd.2 h
      · intro e
        have e : x.mac = p.mac := by simpa using e
        exact nd.1 (by rw [e]; exact List.mem_map_of_mem h)

theorem peerVis_mem {ps : List Peer} (nd : (ps.map (·.mac)).Nodup) {p : Peer} (h : p ∈ ps) : peerVis ps p.mac = if p.pub then some none else none := by
  unfold peerVis; rw [peer_find nd h]; rfl

/-- The peers with certain addresses become public. -/
theorem start_inv {s : Mgr} (h : Inv s) {i : Nat} {l : Link} (hl : s.find i = some l) (sel : List Byte → Bool) :
    Inv ((s.update i fun l => { l with peers := l.peers.map fun p => if sel p.mac then { p with pub := true } else p }).emit (startPeers i (l.peers.filter fun p => sel p.mac))) := by
  have hg := good_of h.shape hl
  have hmac : ∀ ps : List Peer, (ps.map fun p => if sel p.mac then { p with pub := true } else p).map (·.mac) = ps.map (·.mac) := by
    intro ps
    rw [List.map_map]
    apply List.map_congr_left
    intro p _
    simp only [Function.comp]; split <;> rfl
  refine inv_step h _ rfl ?_ ?_ ?_
  · apply shape_emit
    apply shape_update h.shape _ _ (by intro _; rfl)
    intro l' hl'
    have hg := good_of h.shape hl'
    refine ⟨hg.idx, hg.pub, by rw [hmac]; exact hg.nd, ?_, by simp only [List.length_map]; exact hg.cnt, ?_, hg.intent⟩
    · intro p hp
      obtain ⟨q, hq, rfl⟩ := List.mem_map.mp hp
      have := hg.canon q hq
      split <;> exact this
    · intro e
      show l'.peers.map _ = []
      rw [hg.none e]; rfl
  · intro o
    rw [fold_start, vis_emit, vis_update hl _ (by intro _; rfl)]
    cases o with
    | link j =>
      simp only
      split
      · rename_i e; subst e; rw [vis_link hl]; rfl
      · rfl
    | peer m j =>
      simp only
      by_cases e : j = i
      · subst e
        rw [vis_peer hl, if_pos rfl]
        simp only [true_and]
        by_cases hm : ∃ p ∈ l.peers, p.mac = m
        · obtain ⟨p, hp, rfl⟩ := hm
          have hp' : (if sel p.mac then { p with pub := true } else p) ∈ (l.peers.map fun p => if sel p.mac then { p with pub := true } else p) := List.mem_map_of_mem hp
          have hv := peerVis_mem (by rw [hmac]; exact hg.nd) hp'
          have hm' : (if sel p.mac then ({ p with pub := true } : Peer) else p).mac = p.mac := by split <;> rfl
          rw [hm'] at hv
          rw [hv, peerVis_mem hg.nd hp]
          have huniq : ∀ q ∈ l.peers, q.mac = p.mac → q = p := by
            intro q hq e
            have h1 := peer_find hg.nd hq
            rw [e, peer_find hg.nd hp] at h1
            exact (Option.some.inj h1).symm
          cases hs : sel p.mac with
          | false =>
            rw [if_neg]
            · simp
            · rintro ⟨q, hq, e, _⟩
              have := (List.mem_filter.mp hq).2
              rw [e, hs] at this; cases this
          | true =>
            cases hpub : p.pub with
            | true =>
              rw [if_neg]
              · simp
              · rintro ⟨q, hq, e, hqp⟩
                have := huniq q (List.mem_filter.mp hq).1 e
                subst this
                rw [hpub] at hqp; cases hqp
            | false =>
              rw [if_pos]
              · simp
              · exact ⟨p, List.mem_filter.mpr ⟨hp, hs⟩, rfl, hpub⟩
        · rw [if_neg]
          · have h1 : ∀ ps : List Peer, (¬ ∃ p ∈ ps, p.mac = m) → peerVis ps m = none := by
              intro ps hn
              cases hv : peerVis ps m with
              | none => rfl
              | some v =>
                obtain ⟨p, hp, e, _⟩ := peerVis_some (ps := ps) (m := m) (by rw [hv]; simp)
                exact absurd ⟨p, hp, e⟩ hn
            rw [h1 _ hm, h1]
            rintro ⟨p, hp, e⟩
            obtain ⟨q, hq, rfl⟩ := List.mem_map.mp hp
            apply hm
            refine ⟨q, hq, ?_⟩
            rw [← e]; split <;> rfl
          · rintro ⟨q, hq, e, _⟩
            exact hm ⟨q, (List.mem_filter.mp hq).1, e⟩
      · simp [e]
  · apply sound_start
    · exact hg.nd.sublist (List.Sublist.map _ List.filter_sublist)
    · intro p hp hpub
      rw [vis_peer hl, peerVis_mem hg.nd (List.mem_filter.mp hp).1, hpub]; rfl
    · rw [vis_link hl]; rfl
    · exact fun p hp => hg.canon p (List.mem_filter.mp hp).1

theorem started_inv (o : Opts) {s : Mgr} (h : Inv s) (i : Nat) : Inv (s.started o i) := by
  unfold Mgr.started
  cases hl : s.find i with
  | none => exact h
  | some l =>
    simp only
    split
    · exact h
    · rw [if_pos (good_of h.shape hl).pub]
      have h1 := start_inv h hl (fun _ => true)
      have e : l.peers.filter (fun _ => true) = l.peers := List.filter_eq_self.mpr (by simp)
      simp only [e, if_true] at h1
      exact h1

/-- `peerNew` with any counters. -/
def peerNewAt (c c' : Nat) (a : Alloc) (pos : Nat) (mac : List Byte) (l : Link) : Link :=
  if l.peers.any (fun p => p.mac == mac) then l
  else if a.obj ∧ a.text ∧ a.insert then
    if a.sup then { l with peers := place pos ⟨mac, false⟩ l.peers, cnt := c' }
    else { l with cnt := c }
  else l

theorem peerNew_at (a : Alloc) (pos : Nat) (mac : List Byte) (l : Link) : l.peerNew a pos mac = peerNewAt (decr (inc l.cnt)) (inc l.cnt) a pos mac l := rfl

theorem peerNewAt_facts (c c' : Nat) (a : Alloc) (pos : Nat) (mac : List Byte) (l : Link) : (peerNewAt c c' a pos mac l).idx = l.idx ∧ quiet (peerNewAt c c' a pos mac l) = quiet l
    ∧ ((peerNewAt c c' a pos mac l).peers = l.peers ∨ (l.peers.any (fun p => p.mac == mac) = false ∧ (peerNewAt c c' a pos mac l).peers = place pos ⟨mac, false⟩ l.peers)) := by
  unfold peerNewAt
  split
  · exact ⟨rfl, rfl, Or.inl rfl⟩
  · rename_i h
    split
    · split
      · exact ⟨rfl, rfl, Or.inr ⟨by simpa using h, rfl⟩⟩
      · exact ⟨rfl, rfl, Or.inl rfl⟩
    · exact ⟨rfl, rfl, Or.inl rfl⟩

theorem peerNew_facts (a : Alloc) (pos : Nat) (mac : List Byte) (l : Link) : (l.peerNew a pos mac).idx = l.idx ∧ quiet (l.peerNew a pos mac) = quiet l
    ∧ ((l.peerNew a pos mac).peers = l.peers ∨ (l.peers.any (fun p => p.mac == mac) = false ∧ (l.peerNew a pos mac).peers = place pos ⟨mac, false⟩ l.peers)) := by
  rw [peerNew_at]
  exact peerNewAt_facts _ _ a pos mac l

theorem good_cnt {l : Link} (hg : Good l) (c : Nat) (hc : c = l.peers.length % W64) : Good { l with cnt := c } :=
  ⟨hg.idx, hg.pub, hg.nd, hg.canon, hc, hg.none, hg.intent⟩

theorem peerNew_inv {s : Mgr} (h : Inv s) (a : Alloc) (pos i : Nat) (l : Link) (hl : s.find i = some l) (hm : l.managed = true) (mac : List Byte) (hc : Canon mac) :
    Inv (s.update i (·.peerNew a pos mac)) := by
  have hg := good_of h.shape hl
  refine inv_step h [] (by simp [Mgr.update]) ?_ ?_ trivial
  · apply shape_update h.shape _ _ (fun l => (peerNew_facts a pos mac l).1)
    intro l' hl'
    rw [hl] at hl'; cases hl'
    rw [peerNew_at]
    have e1 : inc l.cnt = (l.peers.length + 1) % W64 := by rw [hg.cnt, inc_mod]
    have e2 : decr (inc l.cnt) = l.peers.length % W64 := by rw [e1, decr_mod]
    generalize decr (inc l.cnt) = c at *
    generalize inc l.cnt = c' at *
    unfold peerNewAt
    split
    · exact hg
    · rename_i hno
      have hno : ∀ p ∈ l.peers, p.mac ≠ mac := by
        intro p hp e; exact hno (List.any_eq_true.mpr ⟨p, hp, by simpa using e⟩)
      split
      · split
        · have hp := place_perm pos (⟨mac, false⟩ : Peer) l.peers
          refine ⟨hg.idx, hg.pub, ?_, ?_, ?_, ?_, hg.intent⟩
          · show ((place pos (⟨mac, false⟩ : Peer) l.peers).map (·.mac)).Nodup
            rw [(hp.map _).nodup_iff, List.map_cons, List.nodup_cons]
            refine ⟨?_, hg.nd⟩
            intro hm
            obtain ⟨y, hy, e⟩ := List.mem_map.mp hm
            exact hno y hy e
          · intro x hx
            rcases List.mem_cons.mp (hp.mem_iff.mp hx) with rfl | hx
            · exact hc
            · exact hg.canon x hx
          · show c' = (place pos (⟨mac, false⟩ : Peer) l.peers).length % W64
            rw [hp.length_eq, List.length_cons, e1]
          · intro e
            have e : l.managed = false := e
            rw [hm] at e; cases e
        · exact good_cnt hg c e2
      · exact hg
  · intro o
    have hf := peerNew_facts a pos mac l
    refine (vis_same hl _ (fun l => (peerNew_facts a pos mac l).1) hf.2.1 ?_ o).symm
    intro m
    rcases hf.2.2 with e | ⟨hno, e⟩
    · rw [e]
    · rw [e]
      have hno : ∀ p ∈ l.peers, p.mac ≠ mac := by
        intro p hp e
        rw [List.any_eq_true.mpr ⟨p, hp, by simpa using e⟩] at hno
        cases hno
      unfold peerVis
      rw [find?_place]
      · by_cases e : mac = m
        · subst e
          have : l.peers.find? (fun p => p.mac == mac) = none := by
            apply List.find?_eq_none.mpr
            intro p hp e
            exact hno p hp (by simpa using e)
          simp [this]
        · have : (mac == m) = false := by simpa using e
          simp [this]
      · intro y hy hym
        have e1 : y.mac = m := by simpa using hym
        have := hno y hy
        simp
        intro e
        exact this (by rw [e1, e])

theorem scan_six (zx : Bool) (n : Nat) (s : List Byte) : (Mac.scan zx n s).length = n := by
  induction n generalizing s with
  | zero => rfl
  | succ n ih =>
    unfold Mac.scan
    split
    · simp
    · rename_i b s' _
      split
      · rename_i hn; subst hn; rfl
      · split
        · simp [ih]
        · simp

theorem peer_inv (zx : Bool) {s : Mgr} (h : Inv s) (a : Alloc) (pos i : Nat) (text : List Byte) (running : Bool) : Inv (s.peer zx a pos i text running) := by
  unfold Mgr.peer
  cases hl : s.find i with
  | none => exact h
  | some l =>
    simp only
    split
    · exact h
    · rename_i hm
      have hm : l.managed = true := by simpa using hm
      have hc : Canon (Mac.format (Mac.scan zx 6 text)) := ⟨_, scan_six zx 6 text, rfl⟩
      generalize Mac.format (Mac.scan zx 6 text) = mac at *
      have h1 := peerNew_inv h a pos i l hl hm mac hc
      have hf := fun l : Link => (peerNew_facts a pos mac l).1
      have hl1 : (s.update i (·.peerNew a pos mac)).find i = some (l.peerNew a pos mac) := by
        rw [find_update _ _ _ _ hf, if_pos rfl, hl]; rfl
      split
      · have h2 := start_inv h1 hl1 (fun m => decide (m = mac))
        rw [hl1]
        simpa using h2
      · exact h1

theorem filter_mac_one {ps : List Peer} (nd : (ps.map (·.mac)).Nodup) {p : Peer} (h : p ∈ ps) : (ps.filter (fun x => x.mac ≠ p.mac)).length + 1 = ps.length := by
  induction ps with
  | nil => cases h
  | cons x t ih =>
    simp only [List.map_cons, List.nodup_cons] at nd
    rw [List.filter_cons]
    rcases List.mem_cons.mp h with rfl | h
    · rw [if_neg (by simp), List.filter_eq_self.mpr]
      · rfl
      · intro y hy
        have : y.mac ≠ p.mac := by intro e; exact nd.1 (by rw [← e]; exact List.mem_map_of_mem hy)
        simpa using this
    · have : x.mac ≠ p.mac := by intro e; exact nd.1 (by rw [e]; exact List.mem_map_of_mem h)
      rw [if_pos (by simpa using this), List.length_cons, ih nd.2 h, List.length_cons]

theorem find?_filter_mac (m m' : List Byte) (ps : List Peer) : (ps.filter (fun p => p.mac ≠ m)).find? (fun p => p.mac == m') = if m' = m then none else ps.find? (fun p => p.mac == m') := by
  induction ps with
  | nil => simp
  | cons x t ih =>
    rw [List.filter_cons]
    split
    · rename_i h
      rw [List.find?_cons, List.find?_cons, ih]
      by_cases hj : x.mac = m'
      · subst hj
        have h : x.mac ≠ m := by simpa using h
        simp [h]
      · have : (x.mac == m') = false := by simpa using hj
        simp only [this]
    · rename_i h
      have h : x.mac = m := by simpa using h
      rw [ih]
      by_cases hj : m' = m
      · simp [hj]
      · have : (x.mac == m') = false := by rw [h]; simp; exact fun e => hj e.symm
        rw [List.find?_cons, this]

theorem gone_inv {s : Mgr} (h : Inv s) (i : Nat) (mac : List Byte) : Inv (s.gone i mac) := by
  unfold Mgr.gone
  cases hl : s.find i with
  | none => exact h
  | some l =>
    simp only
    cases hp : l.peers.find? (fun p => p.mac == mac) with
    | none => exact h
    | some p =>
      simp only
      have hpm := List.mem_of_find?_eq_some hp
      have hmac : p.mac = mac := by simpa using List.find?_some hp
      have hg := good_of h.shape hl
      refine inv_step h _ rfl ?_ ?_ ?_
      · apply shape_emit
        apply shape_update h.shape _ _ (by intro _; rfl)
        intro l' hl'
        rw [hl] at hl'; cases hl'
        refine ⟨hg.idx, hg.pub, hg.nd.sublist (List.Sublist.map _ List.filter_sublist), fun q hq => hg.canon q (List.mem_filter.mp hq).1, ?_, ?_, hg.intent⟩
        · show decr l.cnt = (l.peers.filter _).length % W64
          have := filter_mac_one hg.nd hpm
          rw [hmac] at this
          rw [hg.cnt, ← this, decr_mod]
        · intro e
          show l.peers.filter _ = []
          rw [hg.none e]; rfl
      · intro o
        rw [vis_emit, vis_update hl _ (by intro _; rfl)]
        have hold : vis s (.peer mac i) = if p.pub then some none else none := by
          rw [vis_peer hl, ← hmac, peerVis_mem hg.nd hpm]
        cases o with
        | link j =>
          have : ∀ g k, g = ([] : List Sig) ∨ g = [.removed (.peer p.mac i)] → g.foldl (see (.link j)) k = k := by
            rintro g k (rfl | rfl)
            · rfl
            · simp [see]
          rw [this _ _ (by split <;> simp)]
          simp only
          split
          · rename_i e; subst e; rw [vis_link hl]; rfl
          · rfl
        | peer m j =>
          simp only
          by_cases e : j = i
          · subst e
            rw [if_pos rfl]
            unfold peerVis
            rw [find?_filter_mac]
            by_cases em : m = mac
            · subst em
              rw [hold, if_pos rfl, hmac]
              cases p.pub <;> simp [see]
            · have h2 : Obj.peer p.mac j ≠ Obj.peer m j := by intro e'; cases e'; exact em hmac
              have : ∀ g k, g = ([] : List Sig) ∨ g = [.removed (.peer p.mac j)] → g.foldl (see (.peer m j)) k = k := by
                rintro g k (rfl | rfl)
                · rfl
                · simp [see, h2]
              rw [this _ _ (by split <;> simp), if_neg em, vis_peer hl]
              rfl
          · have h2 : Obj.peer p.mac i ≠ Obj.peer m j := by intro e'; cases e'; exact e rfl
            have : ∀ g k, g = ([] : List Sig) ∨ g = [.removed (.peer p.mac i)] → g.foldl (see (.peer m j)) k = k := by
              rintro g k (rfl | rfl)
              · rfl
              · simp [see, h2]
            rw [this _ _ (by split <;> simp), if_neg e]
      · split
        · exact ⟨hg.canon p hpm, trivial⟩
        · trivial

theorem step_inv {o : Opts} {zx : Bool} {s s' : Mgr} (h : Inv s) {e : Op} (hs : step o zx s e = some s') : Inv s' := by
  cases e with
  | scan a pos d ok => cases hs; exact addDev_inv o h _ _ _ _
  | udev a pos act d ok => exact udev_inv o h _ _ _ _ _ hs
  | manage idx set ok => cases hs; exact setManaged_inv h _ _ _
  | friendly idx name ok ready sent => cases hs; exact setFriendly_inv h _ _ _ _ _
  | wfd idx val ok ready sent => cases hs; exact setWfd_inv h _ _ _ _ _
  | status idx w => cases hs; exact status_inv h _ _
  | started idx => cases hs; exact started_inv o h _
  | lost idx =>
    cases hs
    cases hl : s.find idx with
    | none => exact h
    | some l =>
      simp only
      split
      · exact dropPeers_inv h hl
      · exact h
  | peer a pos idx text running => cases hs; exact peer_inv zx h _ _ _ _ _
  | gone idx mac => cases hs; exact gone_inv h _ _

theorem inv_init : Inv {} := by
  refine ⟨⟨by simp, by simp, by intro l h; cases h⟩, ?_, trivial⟩
  intro o; cases o <;> rfl

theorem run_inv {o : Opts} {zx : Bool} {s s' : Mgr} (h : Inv s) {es : List Op} (hs : run o zx s es = some s') : Inv s' := by
  induction es generalizing s with
  | nil => cases hs; exact h
  | cons e t ih =>
    simp only [run, Option.bind_eq_some_iff] at hs
    obtain ⟨s1, h1, h2⟩ := hs
    exact ih (step_inv h h1) h2

end Verif.Wifid
