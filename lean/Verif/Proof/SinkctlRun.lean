import Verif.Proof.SinkctlRefs
/-! # Lemmas about the sink controller: runs and the end of the program -/
namespace Verif.Sinkctl
open Verif.C Verif.Mirror

/-- What is in consistent lists can be known. -/
theorem rel_exists {σ : Type} {w : W σ} (h : Good (w.links.map shape) w.next) : ∃ k, Rel w k := by
  refine ⟨⟨fun x => (w.findLink x).map Link.view, fun x => (w.findPeer x).map Peer.view⟩, h, ?_, ?_⟩
  · intro label hl v
    simp only [Option.map_eq_some_iff]
    have hk : key label ≠ [] := fun e => hl (key_nil.mp e)
    constructor
    · rintro ⟨l, h1, h2⟩
      obtain ⟨-, h3, h4⟩ := (findLink_iff h _ _).mp h1
      exact ⟨l, h3, by rw [h4, key_key], h2⟩
    · rintro ⟨l, h1, h2, h3⟩
      exact ⟨l, (findLink_iff h _ _).mpr ⟨hk, h1, by rw [h2, key_key]⟩, h3⟩
  · intro label v
    simp only [Option.map_eq_some_iff]
    constructor
    · rintro ⟨p, h1, h2⟩
      obtain ⟨l, h3, h4, h5⟩ := (findPeer_iff h _ _).mp h1
      exact ⟨l, h3, p, h4, by rw [h5, key_key], h2⟩
    · rintro ⟨l, h1, p, h2, h3, h4⟩
      exact ⟨p, (findPeer_iff h _ _).mpr ⟨l, h1, h2, by rw [h3, key_key]⟩, h4⟩

/-- Everything that is true between events. -/
structure Ok (w : S) : Prop where
  good : Good (w.links.map shape) w.next
  refs : Refs none w
  live : w.app.alive = true

theorem ok_start : Ok start := by
  refine ⟨?_, ⟨Or.inr rfl, by simp [start], by simp [start], by simp [start], by simp [start]⟩, rfl⟩
  constructor <;> simp [start]

theorem peerAt_some {w : S} {p : Peer} (h : linked w p) : ∃ q, peerAt w p.id = some q ∧ q.id = p.id := by
  unfold peerAt
  cases hf : (w.links.flatMap (·.peers)).find? (fun q => q.id = p.id) with
  | none =>
    obtain ⟨l, hl, hp⟩ := h
    have := List.find?_eq_none.mp hf p (List.mem_flatMap.mpr ⟨l, hl, hp⟩)
    simp at this
  | some q => exact ⟨q, rfl, by simpa using List.find?_some hf⟩

theorem Refs.peer {w : S} (h : Refs none w) {i : Nat} (hi : Ref none w i) : ∃ q, peerAt w i = some q := by
  obtain ⟨p, h1, h2, -⟩ := hi
  obtain ⟨q, h3, -⟩ := peerAt_some (h1.resolve_right (by simp))
  exact ⟨q, by rw [← h2]; exact h3⟩

theorem Ok.app {w : S} (h : Ok w) (c : Ctl) (ha : c.alive = true) (hl : c.runLink = w.app.runLink) (hr : c.runPeer = none ∨ c.runPeer = w.app.runPeer)
    (hp : c.pending = none ∨ c.pending = w.app.pending) : Ok { w with app := c } :=
  ⟨h.good, h.refs.same ⟨rfl, rfl⟩ (ha.trans h.live.symm) hl hr hp, ha⟩

theorem Ok.same {w w' : S} (h : Ok w) (hs : Same w w') (hl : Logged w.app w'.app) : Ok w' := by
  obtain ⟨t, e⟩ := hl
  exact ⟨hs.good h.good, h.refs.same hs (by rw [e]) (by rw [e]) (by rw [e]; exact Or.inr rfl) (by rw [e]; exact Or.inr rfl), by rw [e]; exact h.live⟩

theorem setScan_step (E : Env) {w : S} (h : Ok w) {i : Nat} (v : Bool) (hi : isLink w i) : ∃ w', setScan E i v w = some w' ∧ Ok w' := by
  obtain ⟨w1, h1⟩ := setScan_ok E v hi
  obtain ⟨k, l⟩ := setScan_keep h1
  exact ⟨w1, h1, h.same k l⟩

theorem runOn_step (E : Env) {w : S} (h : Ok w) {i : Nat} (hi : isLink w i) : ∃ w', runOn E i w = some w' ∧ Ok w' := by
  obtain ⟨w1, h1, r1⟩ := runOn_ok E h.refs hi
  refine ⟨w1, h1, (runOn_keep h1).good h.good, r1, ?_⟩
  unfold runOn at h1
  split at h1
  · injection h1 with h1; subst h1; exact h.live
  · simp only [Option.bind_eq_bind, Option.bind_eq_some_iff] at h1
    obtain ⟨w2, h2, h3⟩ := h1
    obtain ⟨-, t, e⟩ := setWfd_keep h2
    obtain ⟨-, t', e'⟩ := setScan_keep h3
    rw [e', e]; exact h.live

theorem sinkFn_step (E : Env) {w : S} (h : Ok w) : ∃ w', sinkFn E w = some w' ∧ Ok w' := by
  unfold sinkFn
  simp only
  split
  · exact ⟨_, rfl, h.app _ h.live rfl (Or.inr rfl) (Or.inr rfl)⟩
  · rename_i i hi
    obtain ⟨q, hq⟩ := h.refs.peer (h.refs.run i hi)
    have hq' : peerAt ({ w with app := { w.app with sinkT := none } } : S) i = some q := hq
    rw [hq']
    simp only [Option.bind_eq_bind, Option.bind_some]
    split
    · exact ⟨_, rfl, h.app _ h.live rfl (Or.inr rfl) (Or.inr rfl)⟩
    · rw [if_neg (by rw [h.live]; simp)]
      split
      · exact ⟨_, rfl, h.app _ h.live rfl (Or.inr rfl) (Or.inr rfl)⟩
      · split
        · exact ⟨_, rfl, h.app _ h.live rfl (Or.inr rfl) (Or.inr rfl)⟩
        · split
          · exact ⟨_, rfl, h.app _ h.live rfl (Or.inr rfl) (Or.inr rfl)⟩
          · exact ⟨_, rfl, h.app _ h.live rfl (Or.inr rfl) (Or.inr rfl)⟩

theorem setName_step {w : S} (h : Ok w) {i : Nat} (v : List Byte) (hi : isLink w i) : ∃ w', setName i v w = some w' ∧ Ok w' := by
  obtain ⟨l, h1, h2, -⟩ := linkAt_some hi
  obtain ⟨c, hc⟩ := Option.ne_none_iff_exists'.mp (h.refs.wfds l h2).2
  unfold setName
  rw [h1]
  simp only [Option.bind_eq_bind, Option.bind_some, hc]
  split
  · exact ⟨_, rfl, h⟩
  · exact ⟨_, rfl, h.same ⟨rfl, rfl⟩ ⟨_, rfl⟩⟩

theorem setManaged_step (E : Env) {w : S} (h : Ok w) {i : Nat} (v : Bool) (hi : isLink w i) : ∃ w', setManaged E i v w = some w' ∧ Ok w' := by
  obtain ⟨l, h1, hm, -⟩ := linkAt_some hi
  unfold setManaged
  rw [h1]
  simp only [Option.bind_eq_bind, Option.bind_some]
  split
  · exact ⟨_, rfl, h⟩
  · refine ⟨_, rfl, ?_⟩
    have h0 : Ok (act (.managed l.label v) w) := h.same ⟨rfl, rfl⟩ ⟨_, rfl⟩
    split
    · have up : ∀ a ∈ w.links, ∃ b ∈ (W.putLink (act (.managed l.label v) w) { l with managed := v }).links, b.id = a.id ∧ b.peers = a.peers := by
        intro a ha
        refine ⟨_, List.mem_map_of_mem ha, ?_⟩
        split
        · rename_i e
          have : a = l := h.good.uniq ha hm e
          subst this
          exact ⟨rfl, rfl⟩
        · exact ⟨rfl, rfl⟩
      have key : ∀ i, Ref none w i → Ref none (W.putLink (act (.managed l.label v) w) { l with managed := v }) i := by
        rintro i ⟨q, h1, h2⟩
        refine ⟨q, Or.inl ?_, h2⟩
        obtain ⟨a, ha, hq⟩ := h1.resolve_right (by simp)
        obtain ⟨b, hb, -, e⟩ := up a ha
        exact ⟨b, hb, by rw [e]; exact hq⟩
      refine ⟨?_, ⟨Or.inr h.live, ?_, ?_, fun i hi => key i (h.refs.run i hi), fun i hi => key i (h.refs.pend i hi)⟩, h.live⟩
      · have e : (W.putLink (act (.managed l.label v) w) { l with managed := v }).links.map shape = w.links.map shape := by
          unfold W.putLink
          simp only [List.map_map]
          refine List.map_congr_left fun a ha => ?_
          simp only [Function.comp]
          split
          · rename_i e
            have : a = l := h.good.uniq ha hm e
            subst this
            rfl
          · rfl
        rw [e]
        exact h.good
      · intro a ha
        obtain ⟨b, hb, rfl⟩ := List.mem_map.mp ha
        split
        · exact h.refs.wfds l hm
        · exact h.refs.wfds b hb
      · intro i hi
        obtain ⟨a, ha, e⟩ := h.refs.link i hi
        obtain ⟨b, hb, e', -⟩ := up a ha
        exact ⟨b, hb, by rw [e']; exact e⟩
    · exact h0

theorem found {w : S} {n : List Byte} {l : Link} (h : w.searchLink n = some l) : isLink w l.id := ⟨l, searchLink_mem h, rfl⟩

/-- One event. -/
theorem step_ok (E : Env) {w : S} (h : Ok w) (e : Ev) (hc : cleanEv e) : ∃ w', step E w e = some w' ∧ Ok w' := by
  cases e with
  | msg m =>
    obtain ⟨k, hk⟩ := rel_exists h.good
    obtain ⟨c, w1, h1, r1⟩ := receive_ok E hk h.refs h.live m hc
    refine ⟨w1, ?_, (receive_step (hooks_quiet E) hk m h1).good, r1, (hooks_alive E).receive h1 h.live⟩
    simp only [step, h1, Option.map_some]
  | run n =>
    simp only [step, cmdRun]
    split
    · rename_i i hi
      obtain ⟨l, h1, -⟩ := linkAt_some (h.refs.link i hi)
      exact ⟨w, by rw [h1]; rfl, h⟩
    · split
      · exact ⟨w, rfl, h⟩
      · rename_i l hl
        split
        · exact ⟨w, rfl, h⟩
        · exact runOn_step E h (found hl)
  | bind n =>
    simp only [step, cmdBind]
    split
    · rename_i i hi
      obtain ⟨l, h1, -⟩ := linkAt_some (h.refs.link i hi)
      exact ⟨w, by rw [h1]; rfl, h⟩
    · have h' : Ok ({ w with app := { w.app with bound := some n } } : S) := h.app _ h.live rfl (Or.inr rfl) (Or.inr rfl)
      split
      · exact ⟨_, rfl, h'⟩
      · rename_i l hl
        split
        · exact ⟨_, rfl, h'⟩
        · exact runOn_step E h' (found hl)
  | setManaged n v =>
    simp only [step, cmdManaged]
    split
    · exact ⟨w, rfl, h⟩
    · rename_i l hl
      exact setManaged_step E h _ (found hl)
  | setName a =>
    simp only [step]
    unfold cmdName
    split
    · exact ⟨w, rfl, h⟩
    · split
      · exact ⟨w, rfl, h⟩
      · rename_i i hi
        exact setName_step h _ (h.refs.link i hi)
    · split
      · exact ⟨w, rfl, h⟩
      · rename_i l hl
        exact setName_step h _ (found hl)
  | scanTimer =>
    simp only [step, scanTimer]
    split
    · exact ⟨w, rfl, h⟩
    · have h0 : Ok ({ w with app := { w.app with scanT := false } } : S) := h.app _ h.live rfl (Or.inr rfl) (Or.inr rfl)
      have key : ∃ w1, expire E ({ w with app := { w.app with scanT := false } } : S) = some w1 ∧ Ok w1 := by
        unfold expire
        split
        · exact ⟨_, rfl, h0⟩
        · rename_i i hi
          have h1 := h0.app { w.app with scanT := false, pending := none } h.live rfl (Or.inr rfl) (Or.inl rfl)
          simp only
          split
          · obtain ⟨q, hq⟩ := h0.refs.peer (h0.refs.pend i hi)
            exact ⟨_, by rw [hq]; rfl, h1⟩
          · exact ⟨_, rfl, h1⟩
      obtain ⟨w1, h1, h2⟩ := key
      rw [h1]
      simp only [Option.bind_eq_bind, Option.bind_some]
      split
      · exact ⟨w1, rfl, h2⟩
      · rename_i i hi
        exact setScan_step E h2 true (h2.refs.link i hi)
  | sinkTimer =>
    simp only [step]
    split
    · exact ⟨w, rfl, h⟩
    · exact sinkFn_step E h
  | up =>
    simp only [step]
    split
    · exact ⟨w, rfl, h⟩
    · exact ⟨_, rfl, h.app _ h.live rfl (Or.inr rfl) (Or.inr rfl)⟩
  | down =>
    simp only [step]
    split
    · exact ⟨w, rfl, h⟩
    · split
      · exact sinkFn_step E (h.app _ h.live rfl (Or.inr rfl) (Or.inr rfl))
      · exact ⟨_, rfl, h.app _ h.live rfl (Or.inr rfl) (Or.inr rfl)⟩
  | resolution =>
    simp only [step]
    split
    · exact ⟨w, rfl, h⟩
    · split
      · exact ⟨w, rfl, h⟩
      · exact ⟨_, rfl, h.app _ h.live rfl (Or.inr rfl) (Or.inr rfl)⟩

theorem run_ok (E : Env) (es : List Ev) {w : S} (h : Ok w) (hc : ∀ e ∈ es, cleanEv e) : ∃ w', run E w es = some w' ∧ Ok w' := by
  induction es generalizing w with
  | nil => exact ⟨w, rfl, h⟩
  | cons e es ih =>
    obtain ⟨w1, h1, r1⟩ := step_ok E h e (hc e (by simp))
    obtain ⟨w2, h2, r2⟩ := ih r1 (fun x hx => hc x (by simp [hx]))
    exact ⟨w2, by rw [run, h1]; exact h2, r2⟩

theorem Ok.valid {w : S} (h : Ok w) : Valid w := by
  have key : ∀ i, Ref none w i → ∃ k, w.app.runLink = some k ∧ isPeer w k i := by
    rintro i ⟨p, h1, h2, h3, -⟩
    obtain ⟨l, hl, hp⟩ := h1.resolve_right (by simp)
    refine ⟨p.l, h3, l, hl, ?_, p, hp, h2⟩
    exact ((h.good.own _ (List.mem_map_of_mem hl) _ (List.mem_map_of_mem hp)).1).symm
  exact ⟨h.refs.link, fun i hi => key i (h.refs.run i hi), fun i hi => key i (h.refs.pend i hi)⟩

/-! ### The end of the program -/

theorem stopScans_ok (E : Env) (ls : List Link) {w : S} (h : ∀ l ∈ ls, isLink w l.id) : ∃ w', stopScans E ls w = some w' ∧ Same w w' ∧ Logged w.app w'.app := by
  induction ls generalizing w with
  | nil => exact ⟨w, rfl, .rfl' _, .rfl' _⟩
  | cons l ls ih =>
    have h1 : ∃ w1, stopScan E l w = some w1 ∧ Same w w1 ∧ Logged w.app w1.app := by
      unfold stopScan
      split
      · obtain ⟨w1, h1⟩ := setScan_ok E false (h l (by simp))
        exact ⟨w1, h1, setScan_keep h1⟩
      · exact ⟨w, rfl, .rfl' _, .rfl' _⟩
    obtain ⟨w1, h1, s1, l1⟩ := h1
    obtain ⟨w2, h2, s2, l2⟩ := ih (w := w1) (fun x hx => s1.isLink (h x (by simp [hx])))
    refine ⟨w2, ?_, s1.trans s2, l1.trans l2⟩
    rw [stopScans, h1]
    exact h2

theorem linkFree_fg (E : Env) {l l' : Link} (h : fg l = fg l') (w : S) : linkFree (hooks E) l w = linkFree (hooks E) l' w := by
  unfold linkFree
  rw [fg_peers h, fg_id h]
  congr 1
  funext w1
  change (onLinkFree l w1).bind _ = (onLinkFree l' w1).bind _
  unfold onLinkFree
  rw [fg_id h]

theorem linkFree_good {H : Hooks Ctl} (hq : Quiet H) {l : Link} {w w' : S} (hg : Good (w.links.map shape) w.next) (hl : l ∈ w.links) (e : linkFree H l w = some w') :
    Good (w'.links.map shape) w'.next ∧ ∀ a ∈ w.links, a.id ≠ l.id → ∃ b ∈ w'.links, fg b = fg a := by
  obtain ⟨h1, h2⟩ := linkFree_eq hq hg hl e
  have hs := h2.shp
  constructor
  · rw [hs, h1]
    have sub : ((w.delLink l.id).links.map shape).Sublist (w.links.map shape) := (List.filter_sublist).map shape
    exact ⟨hg.ids.sublist (sub.map _), fun s hs => hg.lt s (sub.subset hs), hg.labels.sublist sub, fun s hs => hg.own s (sub.subset hs), fun s hs => hg.peers s (sub.subset hs),
      fun s hs s' hs' => hg.pids s (sub.subset hs) s' (sub.subset hs')⟩
  · intro a ha hn
    have : a ∈ (w.delLink l.id).links := by unfold W.delLink; simp [ha, hn]
    obtain ⟨b, hb, e⟩ := h2.symm.mem this
    exact ⟨b, hb, e⟩

theorem freeLinks_ok (E : Env) (ls : List Link) {w : S} (hg : Good (w.links.map shape) w.next) (h : Refs none w) (hl : ∀ l ∈ ls, ∃ a ∈ w.links, fg a = fg l)
    (hd : ls.Pairwise fun a b => a.id ≠ b.id) : ∃ w', freeLinks (hooks E) ls w = some w' := by
  induction ls generalizing w with
  | nil => exact ⟨w, rfl⟩
  | cons l ls ih =>
    obtain ⟨a, ha, e⟩ := hl l (by simp)
    rw [List.pairwise_cons] at hd
    obtain ⟨k, hk⟩ := rel_exists hg
    obtain ⟨w1, h1, r1⟩ := linkFree_ok E hk h ha
    obtain ⟨g1, g2⟩ := linkFree_good (hooks_quiet E) hg ha h1
    obtain ⟨w2, h2⟩ := ih g1 r1 (fun b hb => by
      obtain ⟨c, hc, ec⟩ := hl b (by simp [hb])
      obtain ⟨d, hd', ed⟩ := g2 c hc (by rw [fg_id ec, fg_id e]; exact fun e' => hd.1 b hb e'.symm)
      exact ⟨d, hd', ed.trans ec⟩) hd.2
    refine ⟨w2, ?_⟩
    rw [freeLinks, ← linkFree_fg E e, h1]
    exact h2

/-- The sink is freed, but the session with the peer goes on. -/
structure Doomed (p : Peer) (c : Ctl) : Prop where
  dead : c.alive = false
  run : c.runPeer = some p.id
  link : c.runLink = some p.l

theorem dropPending_app {E : Env} {p : Peer} {w w' : S} (h : dropPending E p w = some w') :
    w'.app.alive = w.app.alive ∧ w'.app.runPeer = w.app.runPeer ∧ w'.app.runLink = w.app.runLink := by
  unfold dropPending at h
  split at h
  · obtain ⟨-, t, e⟩ := setScan_keep h
    rw [e]; exact ⟨rfl, rfl, rfl⟩
  · injection h with h; subst h; exact ⟨rfl, rfl, rfl⟩

theorem killPlayer_alive (w : S) : (killPlayer w).app.alive = w.app.alive := by
  unfold killPlayer
  split <;> rfl

theorem endSession_dead (E : Env) (p : Peer) {w : S} (h : w.app.alive = false) : endSession E p w = none := by
  have : closeSink (killPlayer ({ w with app := { w.app with sinkT := none } } : S)) = none := by
    unfold closeSink
    rw [killPlayer_alive]
    simp [h]
  unfold endSession
  simp only [this, Option.bind_eq_bind, Option.bind_none]

theorem doomed_self (E : Env) {p : Peer} {w : S} (h : Doomed p w.app) (hw : p.wfd.getD [] ≠ []) : peerFree (hooks E) p w = none := by
  unfold peerFree
  change (onPeerFree E p w).bind _ = none
  have : onPeerFree E p w = none := by
    unfold onPeerFree
    rw [not_ignored h.link hw]
    simp only [Bool.false_eq_true, if_false, Option.bind_eq_bind]
    cases h1 : dropPending E p w with
    | none => rfl
    | some w1 =>
      obtain ⟨a, b, c⟩ := dropPending_app h1
      simp only [Option.bind_some]
      rw [if_pos (by rw [b]; exact h.run)]
      exact endSession_dead E p (by rw [a]; exact h.dead)
  rw [this]; rfl

theorem doomed_other (E : Env) {p q : Peer} {w w' : S} (h : Doomed p w.app) (hn : q.id ≠ p.id) (e : peerFree (hooks E) q w = some w') : Doomed p w'.app := by
  unfold peerFree at e
  change (onPeerFree E q w).bind _ = some w' at e
  obtain ⟨w1, h1, h2⟩ := Option.bind_eq_some_iff.mp e
  injection h2 with h2
  subst h2
  change Doomed p w1.app
  unfold onPeerFree at h1
  split at h1
  · injection h1 with h1; subst h1; exact h
  · obtain ⟨w2, h2, h3⟩ := Option.bind_eq_some_iff.mp h1
    obtain ⟨a, b, c⟩ := dropPending_app h2
    have hd : Doomed p w2.app := ⟨by rw [a]; exact h.dead, by rw [b]; exact h.run, by rw [c]; exact h.link⟩
    rw [if_neg (by rw [hd.run]; intro e; injection e with e; exact hn e.symm)] at h3
    injection h3 with h3; subst h3; exact hd

theorem doomed_peers (E : Env) {p : Peer} (hw : p.wfd.getD [] ≠ []) (ps : List Peer) {w : S} (h : Doomed p w.app) (hu : ∀ q ∈ ps, q.id = p.id → q = p) :
    (p ∈ ps → freePeers (hooks E) ps w = none) ∧ (p ∉ ps → ∀ w', freePeers (hooks E) ps w = some w' → Doomed p w'.app) := by
  induction ps generalizing w with
  | nil => refine ⟨by simp, fun _ w' e => ?_⟩; rw [freePeers] at e; injection e with e; subst e; exact h
  | cons q ps ih =>
    rw [freePeers]
    by_cases hq : q.id = p.id
    · have := hu q (by simp) hq
      subst this
      rw [doomed_self E h hw]
      exact ⟨fun _ => rfl, fun hn => absurd (by simp) hn⟩
    · have hne : p ≠ q := fun e => hq (by rw [e])
      cases h1 : peerFree (hooks E) q w with
      | none => exact ⟨fun _ => rfl, fun _ w' e => by cases e⟩
      | some w1 =>
        obtain ⟨a, b⟩ := ih (doomed_other E h hq h1) (fun x hx => hu x (by simp [hx]))
        refine ⟨fun hm => a (by simpa [hne] using hm), fun hm => b (by simpa [hne] using hm)⟩

theorem doomed_links (E : Env) {p : Peer} (hw : p.wfd.getD [] ≠ []) (ls : List Link) {w : S} (h : Doomed p w.app) (hu : ∀ l ∈ ls, ∀ q ∈ l.peers, q.id = p.id → q = p)
    (hl : ∀ l ∈ ls, p ∉ l.peers → l.id ≠ p.l) (he : ∃ l ∈ ls, p ∈ l.peers) : freeLinks (hooks E) ls w = none := by
  induction ls generalizing w with
  | nil => obtain ⟨l, h, -⟩ := he; cases h
  | cons l ls ih =>
    rw [freeLinks]
    obtain ⟨a, b⟩ := doomed_peers E hw l.peers.reverse h (fun q hq => hu l (by simp) q (List.mem_reverse.mp hq))
    by_cases hp : p ∈ l.peers
    · have : linkFree (hooks E) l w = none := by
        unfold linkFree
        rw [a (List.mem_reverse.mpr hp)]; rfl
      rw [this]; rfl
    · cases h1 : linkFree (hooks E) l w with
      | none => rfl
      | some w1 =>
        have hd : Doomed p w1.app := by
          unfold linkFree at h1
          simp only [Option.bind_eq_bind, Option.bind_eq_some_iff] at h1
          obtain ⟨w2, h2, w3, h3, h4⟩ := h1
          have d2 := b (fun hm => hp (List.mem_reverse.mp hm)) w2 h2
          injection h4 with h4
          subst h4
          change Doomed p w3.app
          change onLinkFree l w2 = some w3 at h3
          unfold onLinkFree at h3
          rw [if_neg (by rw [d2.link]; intro e; injection e with e; exact hl l (by simp) hp e.symm)] at h3
          injection h3 with h3; subst h3; exact d2
        refine ih hd (fun x hx => hu x (by simp [hx])) (fun x hx => hl x (by simp [hx])) ?_
        obtain ⟨x, hx, hpx⟩ := he
        rcases List.mem_cons.mp hx with rfl | hx
        · exact absurd hpx hp
        · exact ⟨x, hx, hpx⟩

/-- The program ends well if and only if no session is running. -/
theorem finish_iff (E : Env) {w : S} (h : Ok w) : (∃ w', finish E w = some w') ↔ w.app.runPeer = none := by
  obtain ⟨w1, h1, s1, t, e1⟩ := stopScans_ok E w.links (w := { w with app := { w.app with alive := false, isOpen := false } }) (fun l hl => ⟨l, hl, rfl⟩)
  have s0 : Same w w1 := ⟨s1.sim, s1.next⟩
  have g1 := s0.good h.good
  have hfin : finish E w = freeLinks (hooks E) w1.links.reverse w1 := by
    unfold finish
    simp only [h1, Option.bind_eq_bind, Option.bind_some]
  rw [hfin]
  constructor
  · rintro ⟨w', e⟩
    cases hr : w.app.runPeer with
    | none => rfl
    | some i =>
      exfalso
      obtain ⟨p, h2, h3, h4, h5⟩ := h.refs.run i hr
      have hp1 : linked w1 p := s0.linked (h2.resolve_right (by simp))
      have hd : Doomed p w1.app := ⟨by rw [e1], by rw [e1]; rw [h3]; exact hr, by rw [e1]; exact h4⟩
      obtain ⟨l, hl, hp⟩ := hp1
      have hpl : p.l = l.id := (g1.own _ (List.mem_map_of_mem hl) _ (List.mem_map_of_mem hp)).1
      rw [doomed_links E h5 w1.links.reverse hd] at e
      · cases e
      · intro a ha q hq he
        exact (g1.uniqPid (List.mem_reverse.mp ha) hl hq hp he).2
      · intro a ha hn he
        have := g1.uniq (List.mem_reverse.mp ha) hl (by rw [he, hpl])
        exact hn (by rw [this]; exact hp)
      · exact ⟨l, List.mem_reverse.mpr hl, hp⟩
  · intro hr
    have r1 : Refs none w1 := by
      have r0 : Refs none ({ w with app := { w.app with alive := false, isOpen := false } } : S) :=
        ⟨Or.inl hr, h.refs.wfds, h.refs.link, h.refs.run, h.refs.pend⟩
      exact r0.same s1 (by rw [e1]) (by rw [e1]) (by rw [e1]; exact Or.inr rfl) (by rw [e1]; exact Or.inr rfl)
    refine freeLinks_ok E _ g1 r1 (fun l hl => ⟨l, List.mem_reverse.mp hl, rfl⟩) ?_
    rw [List.pairwise_reverse]
    have := g1.ids
    rw [List.map_map] at this
    have := List.pairwise_map.mp this
    exact this.imp fun h e => h e.symm

/-! ### What is done at the end -/

theorem linkAt_mem {w : S} (hg : Good (w.links.map shape) w.next) {l : Link} (hl : l ∈ w.links) : linkAt w l.id = some l := by
  obtain ⟨a, h1, h2, h3⟩ := linkAt_some (w := w) ⟨l, hl, rfl⟩
  rw [h1, hg.uniq h2 hl h3]

theorem stopScans_eq (E : Env) (ls : List Link) {w : S} (hg : Good (w.links.map shape) w.next) (hl : ∀ l ∈ ls, l ∈ w.links) :
    stopScans E ls w = some { w with app := { w.app with log := w.app.log ++ (ls.filter fun l => l.haveScan && l.scanning).map fun l => .scan l.id l.label false } } := by
  induction ls generalizing w with
  | nil => rw [stopScans]; simp
  | cons l ls ih =>
    have h0 := ih (w := w) hg (fun x hx => hl x (by simp [hx]))
    rw [stopScans]
    unfold stopScan setScan
    rw [linkAt_mem hg (hl l (by simp))]
    cases h1 : l.haveScan with
    | false =>
      simp only [Bool.false_eq_true, if_false, Option.bind_eq_bind, Option.bind_some, h0, List.filter_cons, h1, Bool.false_and]
    | true =>
      cases h2 : l.scanning with
      | false =>
        simp only [if_true, Option.bind_eq_bind, Option.bind_some, h0, List.filter_cons, h1, h2, Bool.and_false, Bool.false_eq_true, if_false]
      | true =>
        simp only [if_true, Option.bind_eq_bind, Option.bind_some, h2, Bool.true_eq_false, if_false, Bool.and_false, Bool.false_eq_true]
        have := ih (w := act (.scan l.id l.label false) w) hg (fun x hx => hl x (by simp [hx]))
        rw [this]
        simp [act, h1, h2]

theorem freePeers_idle (E : Env) (ps : List Peer) {w w' : S} (hr : w.app.runPeer = none) (hp : w.app.pending = none) (e : freePeers (hooks E) ps w = some w') :
    w'.app = w.app := by
  induction ps generalizing w with
  | nil => rw [freePeers] at e; injection e with e; rw [← e]
  | cons p ps ih =>
    rw [freePeers] at e
    have : peerFree (hooks E) p w = some (w.delPeer p.id) := by
      unfold peerFree
      change (onPeerFree E p w).bind _ = _
      unfold onPeerFree dropPending
      simp [hr, hp]
    rw [this] at e
    simp only [Option.bind_eq_bind, Option.bind_some] at e
    have := ih (w := w.delPeer p.id) hr hp e
    exact this

theorem freeLinks_idle (E : Env) (ls : List Link) {w w' : S} (hr : w.app.runPeer = none) (hp : w.app.pending = none) (e : freeLinks (hooks E) ls w = some w') :
    w'.app.log = w.app.log := by
  induction ls generalizing w with
  | nil => rw [freeLinks] at e; injection e with e; rw [← e]
  | cons l ls ih =>
    rw [freeLinks] at e
    obtain ⟨w1, h1, h2⟩ := Option.bind_eq_some_iff.mp e
    unfold linkFree at h1
    simp only [Option.bind_eq_bind, Option.bind_eq_some_iff] at h1
    obtain ⟨w2, h3, w3, h4, h5⟩ := h1
    have e2 := freePeers_idle E _ hr hp h3
    injection h5 with h5
    change onLinkFree l w2 = some w3 at h4
    have e3 : w3.app.log = w2.app.log ∧ w3.app.runPeer = w2.app.runPeer ∧ w3.app.pending = w2.app.pending := by
      unfold onLinkFree at h4
      split at h4 <;> (injection h4 with h4; subst h4; exact ⟨rfl, rfl, rfl⟩)
    have e4 : w1.app = w3.app := by rw [← h5]; rfl
    rw [ih (by rw [e4, e3.2.1, e2]; exact hr) (by rw [e4, e3.2.2, e2]; exact hp) h2, e4, e3.1, e2]

theorem finish_log (E : Env) {w w' : S} (h : Ok w) (hr : w.app.runPeer = none) (hp : w.app.pending = none) (e : finish E w = some w') :
    w'.app.log = w.app.log ++ (w.links.filter fun l => l.haveScan && l.scanning).map fun l => .scan l.id l.label false := by
  unfold finish at e
  have := stopScans_eq E w.links (w := { w with app := { w.app with alive := false, isOpen := false } }) h.good (fun _ h => h)
  simp only [this, Option.bind_eq_bind, Option.bind_some] at e
  exact freeLinks_idle E _ (w := { w with app := { w.app with alive := false, isOpen := false, log := w.app.log ++ (w.links.filter fun l => l.haveScan && l.scanning).map fun l => .scan l.id l.label false } }) hr hp e

end Verif.Sinkctl
