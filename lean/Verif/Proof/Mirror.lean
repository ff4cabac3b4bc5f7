import Verif.Spec.Mirror
/-! # Lemmas about the copy of links and peers -/
namespace Verif.Mirror
open Verif.C

theorem caseEq_key (a b : List Byte) : caseEq a b = decide (key a = key b) := rfl

theorem key_nil {a : List Byte} : key a = [] ↔ a = [] := by unfold key; simp

theorem lower_at (c : Byte) : (toLower c = ch '@') ↔ c = ch '@' := by
  have : ∀ n : Fin 256, (toLower (UInt8.ofNat n.val) = ch '@') ↔ UInt8.ofNat n.val = ch '@' := by decide +kernel
  have h := this ⟨c.toNat, c.toNat_lt⟩
  simpa using h

theorem lower_lower (c : Byte) : toLower (toLower c) = toLower c := by
  have : ∀ n : Fin 256, toLower (toLower (UInt8.ofNat n.val)) = toLower (UInt8.ofNat n.val) := by decide +kernel
  have h := this ⟨c.toNat, c.toNat_lt⟩
  simpa using h

theorem key_key (a : List Byte) : key (key a) = key a := by
  unfold key; rw [List.map_map]; congr 1; funext c; exact lower_lower c

theorem afterAt_cons (c : Byte) (l : List Byte) : afterAt (c :: l) = if c = ch '@' then some l else afterAt l := by
  unfold afterAt
  by_cases h : c = ch '@'
  · rw [if_pos h, List.dropWhile_cons_of_neg (by simp [h])]
  · rw [if_neg h, List.dropWhile_cons_of_pos (by simp [h])]

theorem afterAt_key (l : List Byte) : afterAt (key l) = (afterAt l).map key := by
  induction l with
  | nil => rfl
  | cons c r ih =>
    rw [afterAt_cons]
    show afterAt (toLower c :: key r) = _
    rw [afterAt_cons]
    by_cases h : c = ch '@'
    · rw [if_pos h, if_pos ((lower_at c).mpr h)]; rfl
    · rw [if_neg h, if_neg (fun x => h ((lower_at c).mp x)), ih]

theorem nodup_inj {α β : Type} {f : α → β} {l : List α} (h : (l.map f).Nodup) {a b : α} (ha : a ∈ l) (hb : b ∈ l) (e : f a = f b) : a = b := by
  induction l with
  | nil => simp at ha
  | cons c cs ih =>
    rw [List.map_cons, List.nodup_cons] at h
    rcases List.mem_cons.mp ha with rfl | ha' <;> rcases List.mem_cons.mp hb with rfl | hb'
    · rfl
    · exact absurd (e ▸ List.mem_map_of_mem hb') h.1
    · exact absurd (e ▸ List.mem_map_of_mem ha') h.1
    · exact ih h.2 ha' hb'

/-! ### Shapes -/

/-- The fixed part of a peer. -/
def pshape (p : Peer) : Nat × Nat × List Byte := (p.id, p.l, p.label)

/-- The fixed part of a link, and its peers. -/
def shape (l : Link) : Nat × List Byte × List (Nat × Nat × List Byte) := (l.id, l.label, l.peers.map pshape)

/-- What is true of the lists at all times. -/
structure Good (ss : List (Nat × List Byte × List (Nat × Nat × List Byte))) (next : Nat) : Prop where
  ids : (ss.map (·.1)).Nodup
  lt : ∀ s ∈ ss, s.1 < next
  labels : ss.Pairwise (fun a b => a.2.1 ≠ [] → key a.2.1 ≠ key b.2.1)
  own : ∀ s ∈ ss, ∀ p ∈ s.2.2, p.2.1 = s.1 ∧ p.1 < next ∧ ∃ r, afterAt p.2.2 = some r ∧ r ≠ [] ∧ key r = key s.2.1
  peers : ∀ s ∈ ss, s.2.2.Pairwise (fun a b => key a.2.2 ≠ key b.2.2)
  pids : ∀ s ∈ ss, ∀ s' ∈ ss, ∀ p ∈ s.2.2, ∀ q ∈ s'.2.2, p.1 = q.1 → p = q

theorem Good.next {ss : List (Nat × List Byte × List (Nat × Nat × List Byte))} {n : Nat} (h : Good ss n) : Good ss (n + 1) :=
  ⟨h.ids, fun s hs => Nat.lt_succ_of_lt (h.lt s hs), h.labels, fun s hs p hp => ⟨(h.own s hs p hp).1, Nat.lt_succ_of_lt (h.own s hs p hp).2.1, (h.own s hs p hp).2.2⟩, h.peers, h.pids⟩

/-- A link of the list is determined by its address. -/
theorem Good.uniq {σ : Type} {w : W σ} (h : Good (w.links.map shape) w.next) {a b : Link} (ha : a ∈ w.links) (hb : b ∈ w.links) (e : a.id = b.id) : a = b := by
  have hi := h.ids
  rw [List.map_map] at hi
  exact nodup_inj hi ha hb e

/-- … and by its label. -/
theorem Good.uniqLabel {σ : Type} {w : W σ} (h : Good (w.links.map shape) w.next) {a b : Link} (ha : a ∈ w.links) (hb : b ∈ w.links)
    (hn : a.label ≠ []) (e : key a.label = key b.label) : a = b := by
  have hp := h.labels
  rw [List.pairwise_map] at hp
  have hbn : b.label ≠ [] := fun x => hn (key_nil.mp (by rw [e, x]; rfl))
  clear h
  revert ha hb hp
  generalize w.links = ls
  intro ha hb hp
  induction ls with
  | nil => simp at ha
  | cons c cs ih =>
    rw [List.pairwise_cons] at hp
    rcases List.mem_cons.mp ha with rfl | ha' <;> rcases List.mem_cons.mp hb with rfl | hb'
    · rfl
    · exact absurd e (hp.1 b hb' hn)
    · exact absurd e.symm (hp.1 a ha' hbn)
    · exact ih ha' hb' hp.2

theorem Good.uniqPeer {σ : Type} {w : W σ} (h : Good (w.links.map shape) w.next) {a b : Link} (ha : a ∈ w.links) (hb : b ∈ w.links)
    {p q : Peer} (hp : p ∈ a.peers) (hq : q ∈ b.peers) (e : key p.label = key q.label) : a = b ∧ p = q := by
  obtain ⟨-, -, r, hr, hrn, hrk⟩ := h.own _ (List.mem_map_of_mem ha) _ (List.mem_map_of_mem hp)
  obtain ⟨-, -, r', hr', -, hrk'⟩ := h.own _ (List.mem_map_of_mem hb) _ (List.mem_map_of_mem hq)
  have hk : key r = key r' := by
    have h1 := afterAt_key p.label
    rw [e, afterAt_key] at h1
    change afterAt p.label = some r at hr
    change afterAt q.label = some r' at hr'
    rw [hr, hr'] at h1
    simpa using h1.symm
  have hab : a = b := by
    refine h.uniqLabel ha hb ?_ ?_
    · intro x
      change key r = key a.label at hrk
      rw [x] at hrk
      exact hrn (key_nil.mp hrk)
    · change key r = key a.label at hrk
      change key r' = key b.label at hrk'
      rw [← hrk, hk, hrk']
  refine ⟨hab, ?_⟩
  subst hab
  have hpp := h.peers _ (List.mem_map_of_mem ha)
  change (a.peers.map pshape).Pairwise _ at hpp
  rw [List.pairwise_map] at hpp
  revert hp hq hpp
  generalize a.peers = ls
  intro hp hq hpp
  induction ls with
  | nil => simp at hp
  | cons c cs ih =>
    rw [List.pairwise_cons] at hpp
    rcases List.mem_cons.mp hp with rfl | hp' <;> rcases List.mem_cons.mp hq with rfl | hq'
    · rfl
    · exact absurd e (hpp.1 q hq')
    · exact absurd e.symm (hpp.1 p hp')
    · exact ih hp' hq' hpp.2

theorem Good.uniqPid {σ : Type} {w : W σ} (h : Good (w.links.map shape) w.next) {a b : Link} (ha : a ∈ w.links) (hb : b ∈ w.links)
    {p q : Peer} (hp : p ∈ a.peers) (hq : q ∈ b.peers) (e : p.id = q.id) : a = b ∧ p = q := by
  have hn := h.pids _ (List.mem_map_of_mem ha) _ (List.mem_map_of_mem hb) _ (List.mem_map_of_mem hp) _ (List.mem_map_of_mem hq) e
  have hl : p.label = q.label := congrArg (·.2.2) hn
  exact h.uniqPeer ha hb hp hq (by rw [hl])

/-! ### Looking up -/

theorem findLink_iff {σ : Type} {w : W σ} (h : Good (w.links.map shape) w.next) (label : List Byte) (l : Link) :
    w.findLink label = some l ↔ label ≠ [] ∧ l ∈ w.links ∧ key l.label = key label := by
  unfold W.findLink
  by_cases hl : label = []
  · simp [hl]
  · rw [if_neg hl]
    constructor
    · intro hf
      exact ⟨hl, List.mem_of_find?_eq_some hf, by have := List.find?_some hf; simpa [caseEq_key] using this⟩
    · rintro ⟨-, hm, hk⟩
      cases hf : w.links.find? (fun l => caseEq l.label label) with
      | none =>
        have := List.find?_eq_none.mp hf l hm
        simp [caseEq_key, hk] at this
      | some l' =>
        have hm' := List.mem_of_find?_eq_some hf
        have hk' : key l'.label = key label := by have := List.find?_some hf; simpa [caseEq_key] using this
        have hn : l'.label ≠ [] := by
          intro x; rw [x] at hk'; exact hl (key_nil.mp hk'.symm)
        rw [h.uniqLabel hm' hm hn (hk'.trans hk.symm)]

theorem findPeer_iff {σ : Type} {w : W σ} (h : Good (w.links.map shape) w.next) (label : List Byte) (p : Peer) :
    w.findPeer label = some p ↔ ∃ l ∈ w.links, p ∈ l.peers ∧ key p.label = key label := by
  unfold W.findPeer W.linkByPeer
  by_cases hl : label = []
  · subst hl
    simp only [if_true, reduceCtorEq, false_iff]
    rintro ⟨l, hm, hp, hk⟩
    have hpn : p.label = [] := key_nil.mp hk
    obtain ⟨-, -, r, hr, -⟩ := h.own _ (List.mem_map_of_mem hm) _ (List.mem_map_of_mem hp)
    change afterAt p.label = some r at hr
    rw [hpn] at hr
    exact absurd hr (by simp [afterAt])
  · rw [if_neg hl, if_neg hl]
    constructor
    · intro hf
      simp only [Option.bind_eq_some_iff] at hf
      obtain ⟨l, ⟨r, hr, hfl⟩, hfp⟩ := hf
      rw [findLink_iff h] at hfl
      exact ⟨l, hfl.2.1, List.mem_of_find?_eq_some hfp, by have := List.find?_some hfp; simpa [caseEq_key] using this⟩
    · rintro ⟨l, hm, hp, hk⟩
      obtain ⟨-, -, r, hr, hrn, hrk⟩ := h.own _ (List.mem_map_of_mem hm) _ (List.mem_map_of_mem hp)
      change afterAt p.label = some r at hr
      change key r = key l.label at hrk
      have h1 := afterAt_key p.label
      rw [hk, afterAt_key, hr] at h1
      obtain ⟨r', hr', hk'⟩ := Option.map_eq_some_iff.mp h1
      have hrn' : r' ≠ [] := by
        intro x; rw [x] at hk'; exact hrn (key_nil.mp hk'.symm)
      have hfl : w.findLink r' = some l := (findLink_iff h _ _).mpr ⟨hrn', hm, by rw [← hrk, hk']⟩
      simp only [hr', Option.bind_some, hfl]
      unfold Link.findPeer
      cases hf : l.peers.find? (fun p => caseEq p.label label) with
      | none =>
        have := List.find?_eq_none.mp hf p hp
        simp [caseEq_key, hk] at this
      | some q =>
        have hq := List.mem_of_find?_eq_some hf
        have hqk : key q.label = key label := by have := List.find?_some hf; simpa [caseEq_key] using this
        rw [(h.uniqPeer hm hm hq hp (hqk.trans hk.symm)).2]

/-! ### The program's functions -/

/-- Without the mark. -/
def fg (l : Link) : Link := { l with haveScan := false }

/-- The lists agree but for the marks. -/
def Sim (a b : List Link) : Prop := a.map fg = b.map fg

theorem Sim.trans {a b c : List Link} (h1 : Sim a b) (h2 : Sim b c) : Sim a c := Eq.trans h1 h2

theorem sim_marks {a b : List Link} (h : ∃ g : Link → Bool, a = b.map fun l => { l with haveScan := g l }) : Sim a b := by
  obtain ⟨g, rfl⟩ := h
  unfold Sim
  rw [List.map_map]; rfl

theorem Sim.shp {a b : List Link} (h : Sim a b) : a.map shape = b.map shape := by
  have e : ∀ l : List Link, l.map shape = (l.map fg).map shape := by intro l; rw [List.map_map]; rfl
  rw [e a, e b, h]

theorem Sim.mem {a b : List Link} (h : Sim a b) {l : Link} (hl : l ∈ a) : ∃ l' ∈ b, fg l' = fg l := by
  have : fg l ∈ b.map fg := by rw [← h]; exact List.mem_map_of_mem hl
  obtain ⟨l', h1, h2⟩ := List.mem_map.mp this
  exact ⟨l', h1, h2⟩

theorem Sim.symm {a b : List Link} (h : Sim a b) : Sim b a := Eq.symm h

theorem Sim.peers {a b : List Link} (h : Sim a b) (f : List Peer → List Peer) :
    Sim (a.map fun l => { l with peers := f l.peers }) (b.map fun l => { l with peers := f l.peers }) := by
  have e : ∀ l : List Link, (l.map fun l => { l with peers := f l.peers }).map fg = (l.map fg).map fun l => { l with peers := f l.peers } := by
    intro l; rw [List.map_map, List.map_map]; rfl
  unfold Sim
  rw [e a, e b, h]

theorem Sim.filter {a b : List Link} (h : Sim a b) (f : Nat → Bool) : Sim (a.filter fun l => f l.id) (b.filter fun l => f l.id) := by
  have e : ∀ l : List Link, (l.filter fun l => f l.id).map fg = (l.map fg).filter fun l => f l.id := by
    intro l; rw [List.filter_map]; rfl
  unfold Sim
  rw [e a, e b, h]

theorem fg_peers {a b : Link} (h : fg a = fg b) : a.peers = b.peers := by have := congrArg Link.peers h; exact this
theorem fg_label {a b : Link} (h : fg a = fg b) : a.label = b.label := by have := congrArg Link.label h; exact this
theorem fg_id {a b : Link} (h : fg a = fg b) : a.id = b.id := by have := congrArg Link.id h; exact this
theorem fg_view {a b : Link} (h : fg a = fg b) : a.view = b.view := by have := congrArg Link.view h; exact this

/-! ### What is known is what is in the lists -/

/-- The lists and the knowledge agree. -/
structure Rel {σ : Type} (w : W σ) (k : Known) : Prop where
  good : Good (w.links.map shape) w.next
  link : ∀ label, label ≠ [] → ∀ v, k.link (key label) = some v ↔ ∃ l ∈ w.links, key l.label = key label ∧ l.view = v
  peer : ∀ label v, k.peer (key label) = some v ↔ ∃ l ∈ w.links, ∃ p ∈ l.peers, key p.label = key label ∧ p.view = v

theorem Rel.sim {σ : Type} {w w' : W σ} {k : Known} (h : Rel w k) (hs : Sim w'.links w.links) (hn : w'.next = w.next) : Rel w' k := by
  refine ⟨by rw [hs.shp, hn]; exact h.good, fun label hl v => ?_, fun label v => ?_⟩
  · rw [h.link label hl v]
    constructor
    · rintro ⟨l, hm, h1, h2⟩
      obtain ⟨l', hm', e⟩ := hs.symm.mem hm
      exact ⟨l', hm', by rw [fg_label e, h1], by rw [fg_view e, h2]⟩
    · rintro ⟨l, hm, h1, h2⟩
      obtain ⟨l', hm', e⟩ := hs.mem hm
      exact ⟨l', hm', by rw [fg_label e, h1], by rw [fg_view e, h2]⟩
  · rw [h.peer label v]
    constructor
    · rintro ⟨l, hm, p, hp, h1⟩
      obtain ⟨l', hm', e⟩ := hs.symm.mem hm
      exact ⟨l', hm', p, by rw [fg_peers e]; exact hp, h1⟩
    · rintro ⟨l, hm, p, hp, h1⟩
      obtain ⟨l', hm', e⟩ := hs.mem hm
      exact ⟨l', hm', p, by rw [fg_peers e]; exact hp, h1⟩

theorem Rel.bump {σ : Type} {w : W σ} {k : Known} (h : Rel w k) : Rel { w with next := w.next + 1 } k := ⟨h.good.next, h.link, h.peer⟩

theorem Rel.findLink {σ : Type} {w : W σ} {k : Known} (h : Rel w k) {label : List Byte} (hl : label ≠ []) :
    (w.findLink label).map Link.view = k.link (key label) := by
  cases hk : k.link (key label) with
  | none =>
    cases hf : w.findLink label with
    | none => rfl
    | some l =>
      obtain ⟨-, hm, e⟩ := (findLink_iff h.good _ _).mp hf
      rw [(h.link label hl l.view).mpr ⟨l, hm, e, rfl⟩] at hk
      cases hk
  | some v =>
    obtain ⟨l, hm, e, hv⟩ := (h.link label hl v).mp hk
    rw [(findLink_iff h.good _ _).mpr ⟨hl, hm, e⟩]
    simp [hv]

theorem Rel.findPeer {σ : Type} {w : W σ} {k : Known} (h : Rel w k) (label : List Byte) :
    (w.findPeer label).map Peer.view = k.peer (key label) := by
  cases hk : k.peer (key label) with
  | none =>
    cases hf : w.findPeer label with
    | none => rfl
    | some p =>
      obtain ⟨l, hm, hp, e⟩ := (findPeer_iff h.good _ _).mp hf
      rw [(h.peer label p.view).mpr ⟨l, hm, p, hp, e, rfl⟩] at hk
      cases hk
  | some v =>
    obtain ⟨l, hm, p, hp, e, hv⟩ := (h.peer label v).mp hk
    rw [(findPeer_iff h.good _ _).mpr ⟨l, hm, hp, e⟩]
    simp [hv]

/-! ### The single steps -/

theorem Rel.putPeer {σ : Type} {w : W σ} {k : Known} (h : Rel w k) {l : Link} {p p2 : Peer} (hl : l ∈ w.links) (hp : p ∈ l.peers)
    (hs : pshape p2 = pshape p) : Rel (w.putPeer p2) { k with peer := setAt k.peer (key p.label) (some p2.view) } := by
  have hid : p2.id = p.id := congrArg (·.1) hs
  have hlab : p2.label = p.label := congrArg (·.2.2) hs
  have hsh : (w.putPeer p2).links.map shape = w.links.map shape := by
    unfold W.putPeer
    simp only [List.map_map]
    apply List.map_congr_left
    intro a ha
    show (a.id, a.label, List.map pshape (List.map _ a.peers)) = (a.id, a.label, List.map pshape a.peers)
    rw [List.map_map]
    congr 2
    apply List.map_congr_left
    intro q hq
    simp only [Function.comp]
    split
    · rename_i e
      rw [(h.good.uniqPid ha hl hq hp (e.trans hid)).2, hs]
    · rfl
  refine ⟨by rw [hsh]; exact h.good, fun label hn v => ?_, fun label v => ?_⟩
  · rw [h.link label hn v]
    unfold W.putPeer
    simp only [List.mem_map]
    constructor
    · rintro ⟨a, ha, e⟩; exact ⟨_, ⟨a, ha, rfl⟩, e⟩
    · rintro ⟨_, ⟨a, ha, rfl⟩, e⟩; exact ⟨a, ha, e⟩
  · unfold setAt W.putPeer
    simp only [List.mem_map]
    by_cases he : key label = key p.label
    · rw [if_pos he]
      constructor
      · intro e
        injection e with e
        exact ⟨_, ⟨l, hl, rfl⟩, p2, List.mem_map.mpr ⟨p, hp, by rw [if_pos hid.symm]⟩, by rw [hlab, he], e⟩
      · rintro ⟨_, ⟨a, ha, rfl⟩, q', hq', e1, e2⟩
        obtain ⟨q, hq, rfl⟩ := List.mem_map.mp hq'
        split at e2
        · rw [e2]
        · rename_i hne
          rw [if_neg hne, he] at e1
          exact absurd (by rw [(h.good.uniqPeer ha hl hq hp e1).2, hid]) hne
    · rw [if_neg he, h.peer label v]
      constructor
      · rintro ⟨a, ha, q, hq, e1, e2⟩
        refine ⟨_, ⟨a, ha, rfl⟩, q, List.mem_map.mpr ⟨q, hq, ?_⟩, e1, e2⟩
        rw [if_neg]
        intro e
        exact he (by rw [← (h.good.uniqPid ha hl hq hp (e.trans hid)).2, e1])
      · rintro ⟨_, ⟨a, ha, rfl⟩, q', hq', e1, e2⟩
        obtain ⟨q, hq, rfl⟩ := List.mem_map.mp hq'
        split at e1
        · rw [hlab] at e1; exact absurd e1.symm he
        · rename_i hne
          rw [if_neg hne] at e2
          exact ⟨a, ha, q, hq, e1, e2⟩

theorem putPeer_new {σ : Type} {w : W σ} (h : Good (w.links.map shape) w.next) {p : Peer} (hp : w.next ≤ p.id) : w.putPeer p = w := by
  unfold W.putPeer
  have : (w.links.map fun l => { l with peers := l.peers.map fun q => if q.id = p.id then p else q }) = w.links := by
    conv => rhs; rw [← List.map_id w.links]
    apply List.map_congr_left
    intro a ha
    show ({ a with peers := _ } : Link) = { a with peers := a.peers }
    congr 1
    conv => rhs; rw [← List.map_id a.peers]
    apply List.map_congr_left
    intro q hq
    rw [if_neg]
    · rfl
    · have := (h.own _ (List.mem_map_of_mem ha) _ (List.mem_map_of_mem hq)).2.1
      change q.id < w.next at this
      omega
  rw [this]

theorem Rel.putLink {σ : Type} {w : W σ} {k : Known} (h : Rel w k) {l l2 : Link} (hl : l ∈ w.links) (hn : l.label ≠ [])
    (hid : l2.id = l.id) (hlab : l2.label = l.label) (hpe : l2.peers = l.peers) :
    Rel (w.putLink l2) { k with link := setAt k.link (key l.label) (some l2.view) } := by
  have hsh : (w.putLink l2).links.map shape = w.links.map shape := by
    unfold W.putLink
    simp only [List.map_map]
    apply List.map_congr_left
    intro a ha
    simp only [Function.comp]
    split
    · rename_i e
      rw [h.good.uniq ha hl (e.trans hid)]
      unfold shape
      rw [hid, hlab, hpe]
    · rfl
  refine ⟨by rw [hsh]; exact h.good, fun label hn' v => ?_, fun label v => ?_⟩
  · unfold setAt W.putLink
    simp only [List.mem_map]
    by_cases he : key label = key l.label
    · rw [if_pos he]
      constructor
      · intro e
        injection e with e
        exact ⟨l2, ⟨l, hl, by rw [if_pos hid.symm]⟩, by rw [hlab, he], e⟩
      · rintro ⟨_, ⟨a, ha, rfl⟩, e1, e2⟩
        split at e2
        · rw [e2]
        · rename_i hne
          rw [if_neg hne, he] at e1
          exact absurd (by rw [h.good.uniqLabel hl ha hn e1.symm] at hid; exact hid.symm) hne
    · rw [if_neg he, h.link label hn' v]
      constructor
      · rintro ⟨a, ha, e1, e2⟩
        refine ⟨a, ⟨a, ha, ?_⟩, e1, e2⟩
        rw [if_neg]
        intro e
        exact he (by rw [← h.good.uniq ha hl (e.trans hid), e1])
      · rintro ⟨_, ⟨a, ha, rfl⟩, e1, e2⟩
        split at e1
        · rw [hlab] at e1; exact absurd e1.symm he
        · rename_i hne
          rw [if_neg hne] at e2
          exact ⟨a, ha, e1, e2⟩
  · rw [h.peer label v]
    unfold W.putLink
    simp only [List.mem_map]
    constructor
    · rintro ⟨a, ha, q, hq, e⟩
      refine ⟨_, ⟨a, ha, rfl⟩, q, ?_, e⟩
      split
      · rename_i e'
        rw [hpe, ← h.good.uniq ha hl (e'.trans hid)]; exact hq
      · exact hq
    · rintro ⟨_, ⟨a, ha, rfl⟩, q, hq, e⟩
      refine ⟨a, ha, q, ?_, e⟩
      split at hq
      · rename_i e'
        rw [hpe, ← h.good.uniq ha hl (e'.trans hid)] at hq; exact hq
      · exact hq

theorem Rel.addLink {σ : Type} {w : W σ} {k : Known} (h : Rel w k) {l : Link} (hid : l.id = w.next) (hpe : l.peers = [])
    (hnew : l.label ≠ [] → k.link (key l.label) = none) :
    Rel { w with links := w.links ++ [l], next := w.next + 1 }
      (if l.label = [] then k else { k with link := setAt k.link (key l.label) (some l.view) }) := by
  have hfresh : ∀ a ∈ w.links, l.label ≠ [] → key a.label ≠ key l.label := by
    intro a ha hn e
    have := (h.link l.label hn a.view).mpr ⟨a, ha, e, rfl⟩
    rw [hnew hn] at this
    cases this
  have hsl : shape l = (w.next, l.label, []) := by unfold shape; rw [hid, hpe]; rfl
  have hpeer : ∀ label v, (if l.label = [] then k else { k with link := setAt k.link (key l.label) (some l.view) }).peer label = some v ↔ k.peer label = some v := by
    intro label v; split <;> rfl
  refine ⟨?_, fun label hn v => ?_, fun label v => ?_⟩
  · show Good ((w.links ++ [l]).map shape) (w.next + 1)
    rw [List.map_append, List.map_singleton, hsl]
    have g := h.good.next
    refine ⟨?_, ?_, ?_, ?_, ?_, ?_⟩
    · rw [List.map_append, List.nodup_append]
      refine ⟨g.ids, by simp, ?_⟩
      intro a ha b hb e
      obtain ⟨s, hs, rfl⟩ := List.mem_map.mp ha
      have := h.good.lt s hs
      simp at hb
      omega
    · intro s hs
      rcases List.mem_append.mp hs with hs | hs
      · exact g.lt s hs
      · simp at hs; subst hs; simp
    · rw [List.pairwise_append]
      refine ⟨g.labels, by simp, ?_⟩
      intro a ha b hb hn e
      obtain ⟨a', ha', rfl⟩ := List.mem_map.mp ha
      simp at hb
      subst hb
      change key a'.label = key l.label at e
      refine hfresh a' ha' ?_ e
      intro x
      rw [x] at e
      exact hn (key_nil.mp e)
    · intro s hs p hp
      rcases List.mem_append.mp hs with hs | hs
      · exact g.own s hs p hp
      · simp at hs; subst hs; simp at hp
    · intro s hs
      rcases List.mem_append.mp hs with hs | hs
      · exact g.peers s hs
      · simp at hs; subst hs; simp
    · intro s hs s' hs' p hp q hq
      rcases List.mem_append.mp hs with hs | hs
      · rcases List.mem_append.mp hs' with hs' | hs'
        · exact g.pids s hs s' hs' p hp q hq
        · simp at hs'; subst hs'; simp at hq
      · simp at hs; subst hs; simp at hp
  · show (if l.label = [] then k else { k with link := setAt k.link (key l.label) (some l.view) }).link (key label) = some v ↔
      ∃ l' ∈ w.links ++ [l], key l'.label = key label ∧ l'.view = v
    by_cases h0 : l.label = []
    · rw [if_pos h0, h.link label hn v]
      constructor
      · rintro ⟨a, ha, e⟩; exact ⟨a, List.mem_append_left _ ha, e⟩
      · rintro ⟨a, ha, e⟩
        rcases List.mem_append.mp ha with ha | ha
        · exact ⟨a, ha, e⟩
        · simp at ha
          rw [ha, h0] at e
          exact absurd (key_nil.mp e.1.symm) hn
    · rw [if_neg h0]
      show setAt k.link (key l.label) (some l.view) (key label) = some v ↔ _
      unfold setAt
      by_cases he : key label = key l.label
      · rw [if_pos he]
        constructor
        · intro e; injection e with e
          exact ⟨l, by simp, he.symm, e⟩
        · rintro ⟨a, ha, e1, e2⟩
          rcases List.mem_append.mp ha with ha | ha
          · exact absurd (e1.trans he) (hfresh a ha h0)
          · simp at ha; rw [← ha, e2]
      · rw [if_neg he, h.link label hn v]
        constructor
        · rintro ⟨a, ha, e⟩; exact ⟨a, List.mem_append_left _ ha, e⟩
        · rintro ⟨a, ha, e⟩
          rcases List.mem_append.mp ha with ha | ha
          · exact ⟨a, ha, e⟩
          · simp at ha
            rw [ha] at e
            exact absurd e.1.symm he
  · rw [hpeer, h.peer label v]
    constructor
    · rintro ⟨a, ha, e⟩; exact ⟨a, List.mem_append_left _ ha, e⟩
    · rintro ⟨a, ha, e⟩
      rcases List.mem_append.mp ha with ha | ha
      · exact ⟨a, ha, e⟩
      · simp at ha
        obtain ⟨p, hp, -⟩ := e
        rw [ha, hpe] at hp
        simp at hp

theorem Rel.addPeer {σ : Type} {w : W σ} {k : Known} (h : Rel w k) {l : Link} {p : Peer} (hl : l ∈ w.links) (hpl : p.l = l.id)
    (hlt : p.id < w.next) (hfr : ∀ a ∈ w.links, ∀ q ∈ a.peers, q.id ≠ p.id) {r : List Byte} (hr : afterAt p.label = some r) (hrn : r ≠ [])
    (hrk : key r = key l.label) (hnew : k.peer (key p.label) = none) :
    Rel (w.addPeer p) { k with peer := setAt k.peer (key p.label) (some p.view) } := by
  have hfresh : ∀ a ∈ w.links, ∀ q ∈ a.peers, key q.label ≠ key p.label := by
    intro a ha q hq e
    have := (h.peer p.label q.view).mpr ⟨a, ha, q, hq, e, rfl⟩
    rw [hnew] at this
    cases this
  -- the members of the new lists
  have hmem : ∀ a, a ∈ (w.addPeer p).links ↔ ∃ b ∈ w.links, a = if b.id = p.l then { b with peers := b.peers ++ [p] } else b := by
    intro a
    unfold W.addPeer
    simp only [List.mem_map, eq_comm (a := a)]
  have hpeers : ∀ b ∈ w.links, ∀ q, q ∈ (if b.id = p.l then { b with peers := b.peers ++ [p] } else b : Link).peers ↔ q ∈ b.peers ∨ (b = l ∧ q = p) := by
    intro b hb q
    by_cases e : b.id = p.l
    · rw [if_pos e]
      have : b = l := h.good.uniq hb hl (e.trans hpl)
      simp [this]
    · rw [if_neg e]
      have : b ≠ l := fun x => e (by rw [x, hpl])
      simp [this]
  have hlab : ∀ b : Link, (if b.id = p.l then { b with peers := b.peers ++ [p] } else b : Link).label = b.label := by intro b; split <;> rfl
  have hids : ∀ b : Link, (if b.id = p.l then { b with peers := b.peers ++ [p] } else b : Link).id = b.id := by intro b; split <;> rfl
  have hvw : ∀ b : Link, (if b.id = p.l then { b with peers := b.peers ++ [p] } else b : Link).view = b.view := by intro b; split <;> rfl
  refine ⟨?_, fun label hn v => ?_, fun label v => ?_⟩
  · have g := h.good
    refine ⟨?_, ?_, ?_, ?_, ?_, ?_⟩
    · have e : ((w.addPeer p).links.map shape).map (·.1) = (w.links.map shape).map (·.1) := by
        unfold W.addPeer
        simp only [List.map_map]
        apply List.map_congr_left
        intro a _
        exact hids a
      rw [e]; exact g.ids
    · intro s hs
      obtain ⟨a, ha, rfl⟩ := List.mem_map.mp hs
      obtain ⟨b, hb, rfl⟩ := (hmem a).mp ha
      show Link.id _ < w.next
      rw [hids]
      exact g.lt _ (List.mem_map_of_mem hb)
    · have hp := g.labels
      rw [List.pairwise_map] at hp ⊢
      unfold W.addPeer
      rw [List.pairwise_map]
      refine hp.imp ?_
      intro a b hab
      change (Link.label _ ≠ [] → key (Link.label _) ≠ key (Link.label _))
      rw [hlab, hlab]
      exact hab
    · intro s hs q hq
      obtain ⟨a, ha, rfl⟩ := List.mem_map.mp hs
      obtain ⟨b, hb, rfl⟩ := (hmem a).mp ha
      obtain ⟨q', hq', rfl⟩ := List.mem_map.mp hq
      change q'.l = Link.id _ ∧ q'.id < w.next ∧ ∃ r, afterAt q'.label = some r ∧ r ≠ [] ∧ key r = key (Link.label _)
      rw [hids, hlab]
      rcases (hpeers b hb q').mp hq' with hq' | ⟨rfl, rfl⟩
      · exact g.own _ (List.mem_map_of_mem hb) _ (List.mem_map_of_mem hq')
      · exact ⟨hpl, hlt, r, hr, hrn, hrk⟩
    · intro s hs
      obtain ⟨a, ha, rfl⟩ := List.mem_map.mp hs
      obtain ⟨b, hb, rfl⟩ := (hmem a).mp ha
      have hb' := g.peers _ (List.mem_map_of_mem hb)
      split
      · show List.Pairwise _ ((b.peers ++ [p]).map pshape)
        rw [List.map_append, List.pairwise_append]
        refine ⟨hb', by simp, ?_⟩
        intro x hx y hy
        obtain ⟨q, hq, rfl⟩ := List.mem_map.mp hx
        simp at hy
        subst hy
        exact hfresh b hb q hq
      · exact hb'
    · intro s hs s' hs' x hx y hy
      obtain ⟨a, ha, rfl⟩ := List.mem_map.mp hs
      obtain ⟨b, hb, rfl⟩ := (hmem a).mp ha
      obtain ⟨a', ha', rfl⟩ := List.mem_map.mp hs'
      obtain ⟨b', hb', rfl⟩ := (hmem a').mp ha'
      obtain ⟨q, hq, rfl⟩ := List.mem_map.mp hx
      obtain ⟨q', hq', rfl⟩ := List.mem_map.mp hy
      intro e
      change q.id = q'.id at e
      rcases (hpeers b hb q).mp hq with h1 | ⟨-, h1⟩ <;> rcases (hpeers b' hb' q').mp hq' with h2 | ⟨-, h2⟩
      · rw [(g.uniqPid hb hb' h1 h2 e).2]
      · exact absurd (by rw [e, h2]) (hfr b hb q h1)
      · exact absurd (by rw [← e, h1]) (hfr b' hb' q' h2)
      · rw [h1, h2]
  · show k.link (key label) = some v ↔ _
    rw [h.link label hn v]
    constructor
    · rintro ⟨a, ha, e1, e2⟩
      exact ⟨_, (hmem _).mpr ⟨a, ha, rfl⟩, by rw [hlab, e1], by rw [hvw, e2]⟩
    · rintro ⟨a, ha, e1, e2⟩
      obtain ⟨b, hb, rfl⟩ := (hmem a).mp ha
      exact ⟨b, hb, by rw [hlab] at e1; exact e1, by rw [hvw] at e2; exact e2⟩
  · show setAt k.peer (key p.label) (some p.view) (key label) = some v ↔ _
    unfold setAt
    by_cases he : key label = key p.label
    · rw [if_pos he]
      constructor
      · intro e; injection e with e
        exact ⟨_, (hmem _).mpr ⟨l, hl, rfl⟩, p, (hpeers l hl p).mpr (Or.inr ⟨rfl, rfl⟩), he.symm, e⟩
      · rintro ⟨a, ha, q, hq, e1, e2⟩
        obtain ⟨b, hb, rfl⟩ := (hmem a).mp ha
        rcases (hpeers b hb q).mp hq with hq | ⟨rfl, rfl⟩
        · exact absurd (e1.trans he) (hfresh b hb q hq)
        · rw [e2]
    · rw [if_neg he, h.peer label v]
      constructor
      · rintro ⟨a, ha, q, hq, e⟩
        exact ⟨_, (hmem _).mpr ⟨a, ha, rfl⟩, q, (hpeers a ha q).mpr (Or.inl hq), e⟩
      · rintro ⟨a, ha, q, hq, e1, e2⟩
        obtain ⟨b, hb, rfl⟩ := (hmem a).mp ha
        rcases (hpeers b hb q).mp hq with hq | ⟨rfl, rfl⟩
        · exact ⟨b, hb, q, hq, e1, e2⟩
        · exact absurd e1.symm he

/-- Fewer links and peers. -/
theorem Good.sub {ss ts : List (Nat × List Byte × List (Nat × Nat × List Byte))} {n : Nat} (h : Good ss n)
    (f : List (Nat × Nat × List Byte) → List (Nat × Nat × List Byte)) (hf : ∀ x, (f x).Sublist x)
    (ht : ts.Sublist (ss.map fun s => (s.1, s.2.1, f s.2.2))) : Good ts n := by
  have hm : ∀ t ∈ ts, ∃ s ∈ ss, t = (s.1, s.2.1, f s.2.2) := by
    intro t htt
    obtain ⟨s, hs, e⟩ := List.mem_map.mp (ht.subset htt)
    exact ⟨s, hs, e.symm⟩
  refine ⟨?_, ?_, ?_, ?_, ?_, ?_⟩
  · have := (ht.map (·.1))
    rw [List.map_map] at this
    exact List.Nodup.sublist this h.ids
  · intro t htt
    obtain ⟨s, hs, rfl⟩ := hm t htt
    exact h.lt s hs
  · refine List.Pairwise.sublist ht ?_
    rw [List.pairwise_map]
    exact h.labels
  · intro t htt p hp
    obtain ⟨s, hs, rfl⟩ := hm t htt
    exact h.own s hs p ((hf _).subset hp)
  · intro t htt
    obtain ⟨s, hs, rfl⟩ := hm t htt
    exact List.Pairwise.sublist (hf _) (h.peers s hs)
  · intro t htt t' htt' p hp q hq
    obtain ⟨s, hs, rfl⟩ := hm t htt
    obtain ⟨s', hs', rfl⟩ := hm t' htt'
    exact h.pids s hs s' hs' p ((hf _).subset hp) q ((hf _).subset hq)

theorem Rel.delPeer {σ : Type} {w : W σ} {k : Known} (h : Rel w k) {l : Link} {p : Peer} (hl : l ∈ w.links) (hp : p ∈ l.peers) :
    Rel (w.delPeer p.id) { k with peer := setAt k.peer (key p.label) none } := by
  have hmem : ∀ a, a ∈ (w.delPeer p.id).links ↔ ∃ b ∈ w.links, a = { b with peers := b.peers.filter (fun q => q.id ≠ p.id) } := by
    intro a
    unfold W.delPeer
    simp only [List.mem_map, eq_comm (a := a)]
  refine ⟨?_, fun label hn v => ?_, fun label v => ?_⟩
  · refine h.good.sub (fun x => x.filter (fun q => q.1 ≠ p.id)) (fun x => List.filter_sublist) ?_
    have : (w.delPeer p.id).links.map shape = (w.links.map shape).map fun s => (s.1, s.2.1, s.2.2.filter (fun q => q.1 ≠ p.id)) := by
      unfold W.delPeer
      simp only [List.map_map]
      apply List.map_congr_left
      intro a _
      simp only [Function.comp, shape, List.filter_map]
      rfl
    rw [this]
    exact List.Sublist.refl _
  · show k.link (key label) = some v ↔ _
    rw [h.link label hn v]
    constructor
    · rintro ⟨a, ha, e⟩; exact ⟨_, (hmem _).mpr ⟨a, ha, rfl⟩, e⟩
    · rintro ⟨a, ha, e⟩
      obtain ⟨b, hb, rfl⟩ := (hmem a).mp ha
      exact ⟨b, hb, e⟩
  · show setAt k.peer (key p.label) none (key label) = some v ↔ _
    unfold setAt
    by_cases he : key label = key p.label
    · rw [if_pos he]
      simp only [reduceCtorEq, false_iff]
      rintro ⟨a, ha, q, hq, e1, -⟩
      obtain ⟨b, hb, rfl⟩ := (hmem a).mp ha
      obtain ⟨hq1, hq2⟩ := List.mem_filter.mp hq
      rw [(h.good.uniqPeer hb hl hq1 hp (e1.trans he)).2] at hq2
      simp at hq2
    · rw [if_neg he, h.peer label v]
      constructor
      · rintro ⟨a, ha, q, hq, e1, e2⟩
        refine ⟨_, (hmem _).mpr ⟨a, ha, rfl⟩, q, List.mem_filter.mpr ⟨hq, ?_⟩, e1, e2⟩
        simp only [decide_eq_true_eq]
        intro e
        exact he (by rw [← e1, (h.good.uniqPid ha hl hq hp e).2])
      · rintro ⟨a, ha, q, hq, e⟩
        obtain ⟨b, hb, rfl⟩ := (hmem a).mp ha
        exact ⟨b, hb, q, (List.mem_filter.mp hq).1, e⟩

/-- A link and its peers are removed. -/
theorem Rel.dropLink {σ : Type} {w : W σ} {k : Known} (h : Rel w k) {l : Link} (hl : l ∈ w.links) (hn : l.label ≠ []) :
    Rel (w.delLink l.id) ⟨setAt k.link (key l.label) none, fun x => if afterAt x = some (key l.label) then none else k.peer x⟩ := by
  have hmem : ∀ a, a ∈ (w.delLink l.id).links ↔ a ∈ w.links ∧ a ≠ l := by
    intro a
    unfold W.delLink
    simp only [List.mem_filter, decide_eq_true_eq]
    constructor
    · rintro ⟨h1, h2⟩; exact ⟨h1, fun x => h2 (by rw [x])⟩
    · rintro ⟨h1, h2⟩; exact ⟨h1, fun x => h2 (h.good.uniq h1 hl x)⟩
  have hat : ∀ a ∈ w.links, ∀ q ∈ a.peers, afterAt (key q.label) = some (key l.label) ↔ a = l := by
    intro a ha q hq
    obtain ⟨-, -, r, hr, hrn, hrk⟩ := h.good.own _ (List.mem_map_of_mem ha) _ (List.mem_map_of_mem hq)
    change afterAt q.label = some r at hr
    change key r = key a.label at hrk
    rw [afterAt_key, hr]
    constructor
    · intro e
      injection e with e
      exact (h.good.uniqLabel hl ha hn (by rw [← e, hrk])).symm
    · rintro rfl
      show some (key r) = _
      rw [hrk]
  refine ⟨?_, fun label hn' v => ?_, fun label v => ?_⟩
  · refine h.good.sub id (fun x => List.Sublist.refl _) ?_
    unfold W.delLink
    simp only [id, List.map_id']
    exact List.filter_sublist.map _
  · show setAt k.link (key l.label) none (key label) = some v ↔ _
    unfold setAt
    by_cases he : key label = key l.label
    · rw [if_pos he]
      simp only [reduceCtorEq, false_iff]
      rintro ⟨a, ha, e1, -⟩
      obtain ⟨h1, h2⟩ := (hmem a).mp ha
      exact h2 (h.good.uniqLabel hl h1 hn (by rw [e1, he])).symm
    · rw [if_neg he, h.link label hn' v]
      constructor
      · rintro ⟨a, ha, e1, e2⟩
        exact ⟨a, (hmem a).mpr ⟨ha, fun x => he (by rw [← e1, x])⟩, e1, e2⟩
      · rintro ⟨a, ha, e⟩
        exact ⟨a, ((hmem a).mp ha).1, e⟩
  · show (if afterAt (key label) = some (key l.label) then none else k.peer (key label)) = some v ↔ _
    by_cases he : afterAt (key label) = some (key l.label)
    · rw [if_pos he]
      simp only [reduceCtorEq, false_iff]
      rintro ⟨a, ha, q, hq, e1, -⟩
      obtain ⟨h1, h2⟩ := (hmem a).mp ha
      exact h2 ((hat a h1 q hq).mp (by rw [e1, he]))
    · rw [if_neg he, h.peer label v]
      constructor
      · rintro ⟨a, ha, q, hq, e1, e2⟩
        exact ⟨a, (hmem a).mpr ⟨ha, fun x => he (by rw [← e1]; exact (hat a ha q hq).mpr x)⟩, q, hq, e1, e2⟩
      · rintro ⟨a, ha, q, hq, e⟩
        exact ⟨a, ((hmem a).mp ha).1, q, hq, e⟩

/-! ### Freeing -/

/-- A function that does not touch the lists. -/
def Keeps {σ : Type} (f : W σ → Option (W σ)) : Prop := ∀ w w', f w = some w' → w'.next = w.next ∧ Sim w'.links w.links

theorem Quiet.keeps {σ : Type} {H : Hooks σ} (h : Quiet H) :
    (∀ p, Keeps (H.peerNew p) ∧ Keeps (H.peerFree p) ∧ Keeps (H.connected p) ∧ Keeps (H.disconnected p)) ∧ (∀ l, Keeps (H.linkNew l) ∧ Keeps (H.linkFree l)) ∧
    (∀ p a b, Keeps (H.prov p a b) ∧ Keeps (H.goNeg p a b)) ∧ ∀ p a, Keeps (H.failure p a) := by
  have go : ∀ f : W σ → Option (W σ), (∀ w w', f w = some w' → w'.next = w.next ∧ ∃ g : Link → Bool, w'.links = w.links.map fun l => { l with haveScan := g l }) → Keeps f :=
    fun f hf w w' e => ⟨(hf w w' e).1, sim_marks (hf w w' e).2⟩
  obtain ⟨h1, h2, h3, h4⟩ := h
  exact ⟨fun p => ⟨go _ (h1 p).1, go _ (h1 p).2.1, go _ (h1 p).2.2.1, go _ (h1 p).2.2.2⟩, fun l => ⟨go _ (h2 l).1, go _ (h2 l).2⟩,
    fun p a b => ⟨go _ (h3 p a b).1, go _ (h3 p a b).2⟩, fun p a => go _ (h4 p a)⟩

theorem Rel.keeps {σ : Type} {w w' : W σ} {k : Known} {f : W σ → Option (W σ)} (h : Rel w k) (hf : Keeps f) (e : f w = some w') : Rel w' k :=
  h.sim (hf w w' e).2 (hf w w' e).1

theorem peerFree_eq {σ : Type} {H : Hooks σ} (h : Quiet H) {p : Peer} {w w' : W σ} (e : peerFree H p w = some w') :
    w'.next = w.next ∧ Sim w'.links (w.delPeer p.id).links := by
  unfold peerFree at e
  simp only [Option.bind_eq_bind, Option.bind_eq_some_iff] at e
  obtain ⟨w1, h1, h2⟩ := e
  injection h2 with h2
  subst h2
  obtain ⟨hn, hs⟩ := (h.keeps.1 p).2.1 w w1 h1
  exact ⟨hn, hs.peers (fun x => x.filter (fun q => q.id ≠ p.id))⟩

theorem freePeers_eq {σ : Type} {H : Hooks σ} (h : Quiet H) (ps : List Peer) {w w' : W σ} (e : freePeers H ps w = some w') :
    w'.next = w.next ∧ Sim w'.links (w.links.map fun l => { l with peers := l.peers.filter (fun q => q.id ∉ ps.map Peer.id) }) := by
  induction ps generalizing w with
  | nil =>
    unfold freePeers at e
    injection e with e
    subst e
    refine ⟨rfl, ?_⟩
    have : (w.links.map fun l => { l with peers := l.peers.filter (fun q => q.id ∉ ([] : List Peer).map Peer.id) }) = w.links := by
      conv => rhs; rw [← List.map_id w.links]
      apply List.map_congr_left
      intro a _
      show ({ a with peers := _ } : Link) = { a with peers := a.peers }
      congr 1
      rw [List.filter_eq_self]
      simp
    rw [this]
    rfl
  | cons p ps ih =>
    rw [freePeers] at e
    simp only [Option.bind_eq_bind, Option.bind_eq_some_iff] at e
    obtain ⟨w1, h1, h2⟩ := e
    obtain ⟨hn1, hs1⟩ := peerFree_eq h h1
    obtain ⟨hn2, hs2⟩ := ih h2
    refine ⟨hn2.trans hn1, ?_⟩
    refine hs2.trans ((hs1.peers _).trans ?_)
    have : ((w.delPeer p.id).links.map fun l => { l with peers := l.peers.filter (fun q => q.id ∉ ps.map Peer.id) }) =
        w.links.map fun l => { l with peers := l.peers.filter (fun q => q.id ∉ (p :: ps).map Peer.id) } := by
      unfold W.delPeer
      simp only [List.map_map]
      apply List.map_congr_left
      intro a _
      simp only [Function.comp, List.filter_filter]
      congr 1
      apply List.filter_congr
      intro q _
      simp only [List.map_cons, List.mem_cons, not_or, Bool.decide_and]
      rw [Bool.and_comm]
    rw [this]
    rfl

theorem linkFree_eq {σ : Type} {H : Hooks σ} (h : Quiet H) {l : Link} {w w' : W σ} (hg : Good (w.links.map shape) w.next) (hl : l ∈ w.links)
    (e : linkFree H l w = some w') : w'.next = w.next ∧ Sim w'.links (w.delLink l.id).links := by
  unfold linkFree at e
  simp only [Option.bind_eq_bind, Option.bind_eq_some_iff] at e
  obtain ⟨w1, h1, w2, h2, h3⟩ := e
  injection h3 with h3
  subst h3
  obtain ⟨hn1, hs1⟩ := freePeers_eq h _ h1
  obtain ⟨hn2, hs2⟩ := (h.keeps.2.1 l).2 w1 w2 h2
  refine ⟨hn2.trans hn1, ?_⟩
  have hs := (hs2.trans hs1).filter (fun x => decide (x ≠ l.id))
  refine Sim.trans hs ?_
  have : ((w.links.map fun a => { a with peers := a.peers.filter (fun q => q.id ∉ l.peers.reverse.map Peer.id) }).filter fun a => decide (a.id ≠ l.id)) = (w.delLink l.id).links := by
    unfold W.delLink
    rw [List.filter_map]
    conv => rhs; rw [← List.map_id (w.links.filter _)]
    apply List.map_congr_left
    intro a ha
    obtain ⟨ha1, ha2⟩ := List.mem_filter.mp ha
    simp only [Function.comp, decide_eq_true_eq] at ha2
    show ({ a with peers := _ } : Link) = { a with peers := a.peers }
    congr 1
    rw [List.filter_eq_self]
    intro q hq
    simp only [decide_eq_true_eq, List.mem_map, List.mem_reverse]
    rintro ⟨p, hp, e⟩
    exact ha2 (by rw [(hg.uniqPid hl ha1 hp hq e).1])
  rw [this]
  rfl

end Verif.Mirror
