import Verif.Proof.SinkctlMarks
/-! # When the sink controller becomes free, it scans -/
namespace Verif.Sinkctl
open Verif.C Verif.Mirror

/-- The lists, and the log since `c`. -/
structure Base (c : Ctl) (w : S) : Prop where
  lt : ∀ l ∈ w.links, l.id < w.next
  nd : (w.links.map (·.id)).Nodup
  run : ∀ i, w.app.runLink = some i → i < w.next
  log : ∃ t, w.app.log = c.log ++ t

/-- The link is scanning, or a request to scan was made since `c`. -/
def Scans (c : Ctl) (w : S) (i : Nat) : Prop := (∀ l ∈ w.links, l.id = i → l.scanning = true) ∨ ∃ lb, Act.scan i lb true ∈ w.app.log.drop c.log.length

/-- … whenever it became free since `c`. -/
structure Free (c : Ctl) (w : S) : Prop where
  base : Base c w
  scan : ∀ i, FreeOn w.app i → FreeOn c i ∨ Scans c w i

theorem Base.app {c d : Ctl} {w : S} (h : Base c w) (t : List Act) (hl : d.log = w.app.log ++ t) (hr : d.runLink = none ∨ d.runLink = w.app.runLink) : Base c { w with app := d } := by
  refine ⟨h.lt, h.nd, fun i hi => ?_, ?_⟩
  · rcases hr with hr | hr
    · rw [hr] at hi; cases hi
    · exact h.run i (hr ▸ hi)
  · obtain ⟨t0, ht⟩ := h.log
    exact ⟨t0 ++ t, by rw [hl, ht, List.append_assoc]⟩

theorem Scans.app {c d : Ctl} {w : S} {i : Nat} (hb : Base c w) (h : Scans c w i) (t : List Act) (hl : d.log = w.app.log ++ t) : Scans c { w with app := d } i := by
  rcases h with h | ⟨lb, h⟩
  · exact Or.inl h
  · obtain ⟨t0, ht⟩ := hb.log
    refine Or.inr ⟨lb, ?_⟩
    rw [hl, ht, List.append_assoc, List.drop_left]
    rw [ht, List.drop_left] at h
    exact List.mem_append_left _ h

/-- The variables change, but not so that the controller becomes free. -/
theorem Free.app {c d : Ctl} {w : S} (h : Free c w) (t : List Act) (hl : d.log = w.app.log ++ t) (hr : d.runLink = none ∨ d.runLink = w.app.runLink)
    (hf : d.runLink = none ∨ d.runPeer ≠ none ∨ d.scanT = true ∨ (d.runPeer = w.app.runPeer ∧ d.scanT = w.app.scanT)) : Free c { w with app := d } := by
  refine ⟨h.base.app t hl hr, fun i hi => ?_⟩
  obtain ⟨h1, h2, h3⟩ := hi
  change d.runLink = some i at h1
  change d.runPeer = none at h2
  change d.scanT = false at h3
  rcases hf with hf | hf | hf | ⟨hf, hf'⟩
  · rw [hf] at h1; cases h1
  · exact absurd h2 hf
  · rw [hf] at h3; cases h3
  · rcases hr with hr | hr
    · rw [hr] at h1; cases h1
    · rcases h.scan i ⟨hr ▸ h1, hf ▸ h2, hf' ▸ h3⟩ with h4 | h4
      · exact Or.inl h4
      · exact Or.inr (h4.app h.base t hl)

theorem uniq_of_nd {ls : List Link} (h : (ls.map (·.id)).Nodup) {a b : Link} (ha : a ∈ ls) (hb : b ∈ ls) (e : a.id = b.id) : a = b := by
  induction ls with
  | nil => cases ha
  | cons l ls ih =>
    rw [List.map_cons, List.nodup_cons] at h
    rcases List.mem_cons.mp ha with ha | ha
    · rcases List.mem_cons.mp hb with hb | hb
      · rw [ha, hb]
      · exact absurd (List.mem_map_of_mem (f := (·.id)) hb) (by rw [← e, ha]; exact h.1)
    · rcases List.mem_cons.mp hb with hb | hb
      · exact absurd (List.mem_map_of_mem (f := (·.id)) ha) (by rw [e, hb]; exact h.1)
      · exact ih h.2 ha hb

/-- Changes of the lists that keep links. -/
theorem Base.links {c : Ctl} {w : S} (h : Base c w) {f : Link → Link} (hi : ∀ l, (f l).id = l.id) : Base c { w with links := w.links.map f } := by
  refine ⟨fun l hl => ?_, ?_, h.run, h.log⟩
  · obtain ⟨a, ha, rfl⟩ := List.mem_map.mp hl
    rw [hi]; exact h.lt a ha
  · have : (w.links.map f).map (·.id) = w.links.map (·.id) := by
      rw [List.map_map]
      exact List.map_congr_left fun a _ => hi a
    simp only [this]
    exact h.nd

theorem Scans.links {c : Ctl} {w : S} {i : Nat} (h : Scans c w i) {f : Link → Link} (hi : ∀ l, (f l).id = l.id ∧ (f l).scanning = l.scanning) : Scans c { w with links := w.links.map f } i := by
  rcases h with h | h
  · refine Or.inl fun l hl e => ?_
    obtain ⟨a, ha, rfl⟩ := List.mem_map.mp hl
    rw [(hi a).2]
    exact h a ha (by rw [← (hi a).1]; exact e)
  · exact Or.inr h

theorem Free.links {c : Ctl} {w : S} (h : Free c w) {f : Link → Link} (hi : ∀ l, (f l).id = l.id ∧ (f l).scanning = l.scanning) : Free c { w with links := w.links.map f } :=
  ⟨h.base.links fun l => (hi l).1, fun i hf => (h.scan i hf).imp id fun hs => hs.links hi⟩

/-- Scanning is asked for. -/
theorem Base.scan {E : Env} {c : Ctl} {w w' : S} {i : Nat} (h : Base c w) (hr : ∀ j, w.app.runLink = some j → j = i) (e : setScan E i true w = some w') : Free c w' := by
  unfold setScan at e
  simp only [Option.bind_eq_bind, Option.bind_eq_some_iff] at e
  obtain ⟨l, hl, e⟩ := e
  unfold linkAt at hl
  have hm := List.mem_of_find?_eq_some hl
  have hid : l.id = i := by have := List.find?_some hl; simpa using this
  split at e
  · rename_i hs
    injection e with e; subst e
    refine ⟨h, fun j hj => Or.inr (Or.inl fun a ha hai => ?_)⟩
    have : j = i := hr j hj.1
    rw [uniq_of_nd h.nd ha hm (by rw [hai, this, hid])]
    exact hs
  · have hb : Base c (act (.scan l.id l.label true) w) := h.app [.scan l.id l.label true] rfl (Or.inr rfl)
    have hs : ∀ j, FreeOn (act (.scan l.id l.label true) w).app j → Scans c (act (.scan l.id l.label true) w) j := by
      intro j hj
      refine Or.inr ⟨l.label, ?_⟩
      have : j = i := hr j hj.1
      obtain ⟨t, ht⟩ := h.log
      change Act.scan j l.label true ∈ (w.app.log ++ [Act.scan l.id l.label true]).drop c.log.length
      rw [ht, List.append_assoc, List.drop_left, this, hid]
      simp
    simp only [Option.some.injEq] at e
    subst e
    split
    · exact ⟨hb.links fun _ => rfl, fun j hj => Or.inr ((hs j hj).links fun _ => ⟨rfl, rfl⟩)⟩
    · exact ⟨hb, fun j hj => Or.inr (hs j hj)⟩

theorem Free.wfd {c : Ctl} {w w' : S} (h : Base c w) {i : Nat} {v : List Byte} (e : setWfd i v w = some w') : Base c w' ∧ w'.app.runLink = w.app.runLink := by
  unfold setWfd at e
  simp only [Option.bind_eq_bind, Option.bind_eq_some_iff] at e
  obtain ⟨l, -, x, -, e⟩ := e
  split at e
  · injection e with e; subst e; exact ⟨h, rfl⟩
  · injection e with e; subst e; exact ⟨h.app [.wfd l.label v] rfl (Or.inr rfl), rfl⟩

theorem Free.name {c : Ctl} {w w' : S} (h : Free c w) {i : Nat} {v : List Byte} (e : setName i v w = some w') : Free c w' := by
  unfold setName at e
  simp only [Option.bind_eq_bind, Option.bind_eq_some_iff] at e
  obtain ⟨l, -, x, -, e⟩ := e
  split at e
  · injection e with e; subst e; exact h
  · injection e with e; subst e; exact h.app [.name l.label v] rfl (Or.inr rfl) (Or.inr (Or.inr (Or.inr ⟨rfl, rfl⟩)))

theorem putLink_free {c : Ctl} {w : S} (h : Free c w) {l l2 : Link} (hl : l ∈ w.links) (hi : l2.id = l.id) (hs : l2.scanning = l.scanning) : Free c (w.putLink l2) := by
  have e : w.putLink l2 = { w with links := w.links.map fun a => if a.id = l2.id then { l2 with id := a.id, scanning := a.scanning } else a } := by
    unfold W.putLink
    congr 1
    apply List.map_congr_left
    intro a ha
    split
    · rename_i hh
      have : a = l := uniq_of_nd h.base.nd ha hl (by rw [hh, hi])
      rw [this, ← hi, ← hs]
    · rfl
  rw [e]
  refine h.links fun a => ?_
  split <;> exact ⟨rfl, rfl⟩

theorem Free.managed {E : Env} {c : Ctl} {w w' : S} (h : Free c w) {i : Nat} {v : Bool} (e : setManaged E i v w = some w') : Free c w' := by
  unfold setManaged at e
  simp only [Option.bind_eq_bind, Option.bind_eq_some_iff] at e
  obtain ⟨l, hl, e⟩ := e
  have hm := List.mem_of_find?_eq_some hl
  split at e
  · injection e with e; subst e; exact h
  · simp only [Option.some.injEq] at e
    subst e
    have h1 : Free c (act (.managed l.label v) w) := h.app [.managed l.label v] rfl (Or.inr rfl) (Or.inr (Or.inr (Or.inr ⟨rfl, rfl⟩)))
    split
    · exact putLink_free h1 hm rfl rfl
    · exact h1

theorem Free.runOn {E : Env} {c : Ctl} {w w' : S} (h : Free c w) {i : Nat} (hi : isLink w i) (e : runOn E i w = some w') : Free c w' := by
  unfold Sinkctl.runOn at e
  split at e
  · injection e with e; subst e; exact h
  · rename_i hn
    simp only [Option.bind_eq_bind, Option.bind_eq_some_iff] at e
    obtain ⟨w1, h1, h2⟩ := e
    obtain ⟨l, hl, hid⟩ := hi
    have hb : Base c ({ w with app := { w.app with runLink := some i } } : S) := by
      refine ⟨h.base.lt, h.base.nd, fun j hj => ?_, h.base.log⟩
      injection hj with hj
      have := h.base.lt l hl
      show j < w.next
      omega
    obtain ⟨b1, b2⟩ := Free.wfd hb h1
    refine b1.scan (fun j hj => ?_) h2
    rw [b2] at hj
    injection hj with hj; exact hj.symm

theorem endSession_free {E : Env} {c : Ctl} {w w' : S} (h : Base c w) {p : Peer} (hr : w.app.runLink = some p.l) (e : endSession E p w = some w') : Free c w' := by
  unfold Sinkctl.endSession at e
  simp only [Option.bind_eq_bind, Option.bind_eq_some_iff] at e
  obtain ⟨w1, h1, h2⟩ := e
  have h0 : Base c (killPlayer ({ w with app := { w.app with sinkT := none } } : S)) ∧ (killPlayer ({ w with app := { w.app with sinkT := none } } : S)).app.runLink = some p.l := by
    unfold killPlayer
    split
    · exact ⟨h.app [] (by simp) (Or.inr rfl), hr⟩
    · rename_i q hq
      exact ⟨h.app [.kill q] rfl (Or.inr rfl), hr⟩
  have h3 : Base c w1 ∧ w1.app.runLink = some p.l := by
    unfold closeSink at h1
    split at h1
    · cases h1
    · injection h1 with h1
      subst h1
      exact ⟨h0.1.app [.close] rfl (Or.inr rfl), h0.2⟩
  refine Base.scan (h3.1.app (d := { (act (.stopped p.id) w1).app with runPeer := none, scanT := false }) [.stopped p.id] rfl (Or.inr rfl)) (fun j hj => ?_) h2
  change w1.app.runLink = some j at hj
  rw [h3.2] at hj
  injection hj with hj; exact hj.symm

theorem Free.sinkFn {E : Env} {c : Ctl} {w w' : S} (h : Free c w) (e : sinkFn E w = some w') : Free c w' := by
  have k : ∀ d : Ctl, ∀ t, d.log = w.app.log ++ t → d.runLink = w.app.runLink → d.runPeer = w.app.runPeer → d.scanT = w.app.scanT → Free c { w with app := d } :=
    fun d t a b x y => h.app t a (Or.inr b) (Or.inr (Or.inr (Or.inr ⟨x, y⟩)))
  unfold Sinkctl.sinkFn at e
  simp only at e
  split at e
  · injection e with e; subst e; exact k _ [] (by simp) rfl rfl rfl
  · simp only [Option.bind_eq_bind, Option.bind_eq_some_iff] at e
    obtain ⟨p, -, e⟩ := e
    split at e
    · injection e with e; subst e; exact k _ [] (by simp) rfl rfl rfl
    · split at e
      · cases e
      · split at e
        · injection e with e; subst e; exact k _ [] (by simp) rfl rfl rfl
        · split at e
          · injection e with e; subst e; exact k _ [.connect p.rem] rfl rfl rfl rfl
          · split at e
            · injection e with e; subst e; exact k _ [.connect p.rem] rfl rfl rfl rfl
            · injection e with e; subst e; exact k _ [.connect p.rem] rfl rfl rfl rfl

theorem hooks_free (E : Env) (c : Ctl) : HoldsCore (hooks E) (Free c) := by
  constructor
  · intro p w w' h ha; injection h with h; subst h; exact ha
  · intro p w w' h ha
    change onPeerFree E p w = some w' at h
    unfold onPeerFree at h
    split at h
    · injection h with h; subst h; exact ha
    · rename_i hig
      obtain ⟨w1, h1, h2⟩ := Option.bind_eq_some_iff.mp h
      obtain ⟨hr, -⟩ := ignored_false hig
      have a1 : Free c w1 ∧ w1.app.runLink = some p.l := by
        unfold dropPending at h1
        split at h1
        · refine ⟨(ha.base.app (d := { w.app with pending := none, scanT := false }) [] (by simp) (Or.inr rfl)).scan (fun j hj => ?_) h1, ?_⟩
          · change w.app.runLink = some j at hj
            rw [hr] at hj
            injection hj with hj; exact hj.symm
          · obtain ⟨-, t, e⟩ := setScan_keep h1
            rw [e]; exact hr
        · injection h1 with h1; subst h1; exact ⟨ha, hr⟩
      split at h2
      · exact endSession_free a1.1.base a1.2 h2
      · injection h2 with h2; subst h2; exact a1.1
  · intro p w w' h ha
    change onConnected p w = some w' at h
    unfold onConnected at h
    split at h
    · injection h with h; subst h; exact ha
    · simp only at h
      split at h
      · injection h with h; subst h; exact ha.app [] (by simp) (Or.inr rfl) (Or.inr (Or.inr (Or.inr ⟨rfl, rfl⟩)))
      · injection h with h; subst h; exact ha.app [.running p.id] rfl (Or.inr rfl) (Or.inr (Or.inl (by simp)))
  · intro p w w' h ha
    change onDisconnected E p w = some w' at h
    unfold onDisconnected at h
    split at h
    · injection h with h; subst h; exact ha
    · rename_i hig
      split at h
      · exact endSession_free ha.base (ignored_false hig).1 h
      · injection h with h; subst h; exact ha
  · intro l w w' h ha
    change onLinkNew E w = some w' at h
    unfold onLinkNew at h
    split at h
    · split at h
      · rename_i hs
        exact ha.runOn (found hs) h
      · injection h with h; subst h; exact ha
    · injection h with h; subst h; exact ha
  · intro l w w' h ha
    change onLinkFree l w = some w' at h
    unfold onLinkFree at h
    split at h
    · injection h with h; subst h; exact ha.app [] (by simp) (Or.inl rfl) (Or.inl rfl)
    · injection h with h; subst h; exact ha
  · intro p a b w w' h ha; injection h with h; subst h; exact ha
  · intro p a b w w' h ha
    change onGoNeg p w = some w' at h
    unfold onGoNeg at h
    split at h
    · injection h with h; subst h; exact ha
    · split at h
      · injection h with h; subst h; exact ha
      · injection h with h; subst h; exact ha.app [.accept p.label (bytes "auto") []] rfl (Or.inr rfl) (Or.inr (Or.inr (Or.inl rfl)))
  · intro p a w w' h ha
    change onFailure E p w = some w' at h
    unfold onFailure at h
    split at h
    · injection h with h; subst h; exact ha
    · rename_i hig
      split at h
      · injection h with h; subst h; exact ha
      · refine (ha.base.app (d := { w.app with scanT := false }) [] (by simp) (Or.inr rfl)).scan (fun j hj => ?_) h
        change w.app.runLink = some j at hj
        rw [(ignored_false hig).1] at hj
        injection hj with hj; exact hj.symm
  · intro p w h; exact h.links fun _ => ⟨rfl, rfl⟩
  · intro p w h
    refine h.links fun l => ?_
    split <;> exact ⟨rfl, rfl⟩
  · intro p w h; exact h.links fun _ => ⟨rfl, rfl⟩
  · intro i w h
    refine ⟨⟨fun a ha => h.base.lt a ((List.mem_filter.mp ha).1), ?_, h.base.run, h.base.log⟩, fun j hj => (h.scan j hj).imp id fun hs => ?_⟩
    · have : (w.delLink i).links.Sublist w.links := List.filter_sublist
      exact h.base.nd.sublist (this.map _)
    · rcases hs with hs | hs
      · exact Or.inl fun a ha => hs a ((List.mem_filter.mp ha).1)
      · exact Or.inr hs
  · intro l w hi hs h
    refine ⟨⟨fun a ha => ?_, ?_, fun i hi => Nat.lt_succ_of_lt (h.base.run i hi), h.base.log⟩, fun j hj => (h.scan j hj).imp id fun hs => ?_⟩
    · change a.id < w.next + 1
      rcases List.mem_append.mp ha with ha | ha
      · exact Nat.lt_succ_of_lt (h.base.lt a ha)
      · rw [List.mem_singleton.mp ha]; omega
    · simp only [List.map_append, List.map_cons, List.map_nil]
      rw [List.nodup_append]
      refine ⟨h.base.nd, by simp, ?_⟩
      intro a ha b hb e
      obtain ⟨k, hk, rfl⟩ := List.mem_map.mp ha
      rw [List.mem_singleton] at hb
      have := h.base.lt k hk
      omega
    · rcases hs with hs | hs
      · refine Or.inl fun a ha e => ?_
        rcases List.mem_append.mp ha with ha | ha
        · exact hs a ha e
        · rw [List.mem_singleton.mp ha] at e
          have := h.base.run j hj.1
          omega
      · exact Or.inr hs
  · intro w h
    exact ⟨⟨fun a ha => Nat.lt_succ_of_lt (h.base.lt a ha), h.base.nd, fun i hi => Nat.lt_succ_of_lt (h.base.run i hi), h.base.log⟩, h.scan⟩

theorem Base.self {c : Ctl} {w : S} (h : Base c w) : Free w.app w := ⟨⟨h.lt, h.nd, h.run, [], by simp⟩, fun _ hi => Or.inl hi⟩

theorem step_free {E : Env} {e : Ev} {w w' : S} (h : Free w.app w) (hs : step E w e = some w') : Free w.app w' := by
  have plain : ∀ d : Ctl, ∀ t, d.log = w.app.log ++ t → d.runLink = w.app.runLink → d.runPeer = w.app.runPeer → d.scanT = w.app.scanT → Free w.app { w with app := d } :=
    fun d t a b x y => h.app t a (Or.inr b) (Or.inr (Or.inr (Or.inr ⟨x, y⟩)))
  cases e with
  | msg m =>
    simp only [step, Option.map_eq_some_iff, Prod.exists] at hs
    obtain ⟨c, w1, h1, rfl⟩ := hs
    refine (hooks_free E w.app).receive (fun l u hl => ?_) h1 h
    refine ⟨?_, fun i hi => Or.inl hi⟩
    unfold W.putLink
    have : (w.links.map fun a => if a.id = (u.apply l).id then u.apply l else a) = w.links.map fun a => { (if a.id = (u.apply l).id then u.apply l else a) with id := a.id } := by
      apply List.map_congr_left
      intro a ha
      split
      · rename_i he; rw [he]
      · rfl
    rw [this]
    exact h.base.links fun _ => rfl
  | run n =>
    simp only [step, cmdRun] at hs
    split at hs
    · obtain ⟨-, -, rfl⟩ := Option.map_eq_some_iff.mp hs; exact h
    · split at hs
      · injection hs with hs; subst hs; exact h
      · rename_i hf
        split at hs
        · injection hs with hs; subst hs; exact h
        · exact h.runOn (found hf) hs
  | bind n =>
    simp only [step, cmdBind] at hs
    split at hs
    · obtain ⟨-, -, rfl⟩ := Option.map_eq_some_iff.mp hs; exact h
    · split at hs
      · injection hs with hs; subst hs; exact plain _ [] (by simp) rfl rfl rfl
      · rename_i hf
        split at hs
        · injection hs with hs; subst hs; exact plain _ [] (by simp) rfl rfl rfl
        · exact (plain { w.app with bound := some n } [] (by simp) rfl rfl rfl).runOn (found hf) hs
  | setManaged n v =>
    simp only [step, cmdManaged] at hs
    split at hs
    · injection hs with hs; subst hs; exact h
    · exact h.managed hs
  | setName a =>
    simp only [step] at hs
    unfold cmdName at hs
    split at hs
    · injection hs with hs; subst hs; exact h
    · split at hs
      · injection hs with hs; subst hs; exact h
      · exact h.name hs
    · split at hs
      · injection hs with hs; subst hs; exact h
      · exact h.name hs
  | scanTimer =>
    simp only [step, scanTimer] at hs
    split at hs
    · injection hs with hs; subst hs; exact h
    · obtain ⟨w1, h1, h2⟩ := Option.bind_eq_some_iff.mp hs
      have h3 : Base w.app w1 := by
        unfold expire at h1
        split at h1
        · injection h1 with h1; subst h1; exact h.base.app [] (by simp) (Or.inr rfl)
        · simp only at h1
          split at h1
          · obtain ⟨-, -, rfl⟩ := Option.map_eq_some_iff.mp h1; exact h.base.app [] (by simp) (Or.inr rfl)
          · injection h1 with h1; subst h1; exact h.base.app [] (by simp) (Or.inr rfl)
      split at h2
      · rename_i hn
        injection h2 with h2; subst h2
        exact ⟨h3, fun i hi => by rw [hi.1] at hn; cases hn⟩
      · rename_i i hi
        refine h3.scan (fun j hj => ?_) h2
        rw [hi] at hj
        injection hj with hj; exact hj.symm
  | sinkTimer =>
    simp only [step] at hs
    split at hs
    · injection hs with hs; subst hs; exact h
    · exact h.sinkFn hs
  | up =>
    simp only [step] at hs
    split at hs
    · injection hs with hs; subst hs; exact h
    · injection hs with hs; subst hs; exact plain _ [] (by simp) rfl rfl rfl
  | down =>
    simp only [step] at hs
    split at hs
    · injection hs with hs; subst hs; exact h
    · split at hs
      · exact Free.sinkFn (plain { w.app with isOpen := false } [] (by simp) rfl rfl rfl) hs
      · injection hs with hs; subst hs; exact plain _ [] (by simp) rfl rfl rfl
  | resolution =>
    simp only [step] at hs
    split at hs
    · injection hs with hs; subst hs; exact h
    · split at hs
      · injection hs with hs; subst hs; exact h
      · rename_i n hn
        injection hs with hs; subst hs
        exact plain _ [.spawn (n + 1)] rfl rfl rfl rfl

theorem run_base {E : Env} (es : List Ev) {w w' : S} (h : Free w.app w) (hs : run E w es = some w') : Free w'.app w' := by
  induction es generalizing w with
  | nil => rw [run] at hs; injection hs with hs; subst hs; exact h
  | cons e es ih =>
    rw [run] at hs
    obtain ⟨w1, h1, h2⟩ := Option.bind_eq_some_iff.mp hs
    exact ih (step_free h h1).base.self h2

theorem free_start : Free start.app start := Base.self (c := start.app) ⟨by simp [start], by simp [start], by simp [start], [], by simp⟩

end Verif.Sinkctl
