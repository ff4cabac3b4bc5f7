import Verif.Proof.SinkctlRun
import Verif.Proof.MirrorAll
/-! # Lemmas about the sink controller: which links it started scanning -/
namespace Verif.Sinkctl
open Verif.C Verif.Mirror

/-- Not a request to scan. -/
def noScan : Act → Bool
  | .scan _ _ true => false
  | _ => true

theorem started_append (E : Env) (log t : List Act) (id : Nat) (h : ∀ a ∈ t, noScan a = true) : started E (log ++ t) id = started E log id := by
  unfold started
  rw [List.zipIdx_append, List.any_append]
  have : (t.zipIdx (0 + log.length)).any (agreed E id) = false := by
    rw [List.any_eq_false]
    rintro ⟨a, n⟩ hm
    have := h a (List.fst_mem_of_mem_zipIdx hm)
    cases a with
    | scan i l v => cases v <;> simp_all [noScan, agreed]
    | _ => simp [agreed]
  rw [this, Bool.or_false]

theorem started_scan (E : Env) (log : List Act) (i : Nat) (l : List Byte) (id : Nat) :
    started E (log ++ [.scan i l true]) id = (started E log id || (i == id && E.bus log.length)) := by
  unfold started
  rw [List.zipIdx_append, List.any_append]
  simp [agreed]

/-- The marks say what was asked for. -/
structure Marks (E : Env) (w : S) : Prop where
  mark : ∀ l ∈ w.links, l.haveScan = started E w.app.log l.id
  lt : ∀ l ∈ w.links, l.id < w.next
  new : ∀ i, w.next ≤ i → started E w.app.log i = false

theorem marks_start {E : Env} : Marks E start := ⟨by simp [start], by simp [start], fun _ _ => rfl⟩

/-- Other things are done. -/
theorem Marks.app {E : Env} {w : S} (h : Marks E w) {c : Ctl} (t : List Act) (hl : c.log = w.app.log ++ t) (ht : ∀ a ∈ t, noScan a = true) : Marks E { w with app := c } := by
  refine ⟨fun l hm => ?_, h.lt, fun i hi => ?_⟩
  · change l.haveScan = started E c.log l.id
    rw [hl, started_append E _ _ _ ht]
    exact h.mark l hm
  · change started E c.log i = false
    rw [hl, started_append E _ _ _ ht]
    exact h.new i hi

theorem Marks.var {E : Env} {w : S} (h : Marks E w) {c : Ctl} (hl : c.log = w.app.log) : Marks E { w with app := c } := h.app [] (by simp [hl]) (by simp)

theorem Marks.setScan {E : Env} {w w' : S} (h : Marks E w) {i : Nat} {v : Bool} (e : setScan E i v w = some w') : Marks E w' := by
  unfold Sinkctl.setScan at e
  simp only [Option.bind_eq_bind, Option.bind_eq_some_iff] at e
  obtain ⟨l, h1, e⟩ := e
  have hm : l ∈ w.links := List.mem_of_find?_eq_some h1
  have hi : l.id = i := by simpa using List.find?_some h1
  split at e
  · injection e with e; subst e; exact h
  · injection e with e
    subst e
    cases v with
    | false =>
      simp only [Bool.and_false, Bool.false_eq_true, if_false]
      exact h.app [.scan l.id l.label false] rfl (by simp [noScan])
    | true =>
      simp only [Bool.and_true]
      have e0 : ∀ j, started E (act (.scan l.id l.label true) w).app.log j = (started E w.app.log j || (l.id == j && E.bus (steps w))) := fun j => started_scan E _ _ _ _
      cases hb : E.bus (steps w) with
      | false =>
        simp only [Bool.false_eq_true, if_false]
        refine ⟨fun a ha => ?_, h.lt, fun j hj => ?_⟩
        · rw [e0, hb, Bool.and_false, Bool.or_false]; exact h.mark a ha
        · rw [e0, hb, Bool.and_false, Bool.or_false]; exact h.new j hj
      | true =>
        simp only [if_true]
        refine ⟨fun a ha => ?_, fun a ha => ?_, fun j hj => ?_⟩
        · obtain ⟨b, hb', rfl⟩ := List.mem_map.mp ha
          change (decide (b.id = i) || b.haveScan) = started E (act (.scan l.id l.label true) w).app.log b.id
          rw [e0, hb, Bool.and_true, ← h.mark b hb', hi, Bool.or_comm]
          congr 1
          by_cases e : b.id = i
          · simp [e]
          · have e' : ¬i = b.id := fun h => e h.symm
            simp [e, e']
        · obtain ⟨b, hb', rfl⟩ := List.mem_map.mp ha
          exact h.lt b hb'
        · change started E (act (.scan l.id l.label true) w).app.log j = false
          have := h.lt l hm
          change w.next ≤ j at hj
          rw [e0, h.new j hj, Bool.false_or]
          simp; omega

theorem Marks.setWfd {E : Env} {w w' : S} (h : Marks E w) {i : Nat} {v : List Byte} (e : setWfd i v w = some w') : Marks E w' := by
  unfold Sinkctl.setWfd at e
  simp only [Option.bind_eq_bind, Option.bind_eq_some_iff] at e
  obtain ⟨l, -, c, -, e⟩ := e
  split at e
  · injection e with e; subst e; exact h
  · injection e with e; subst e; exact h.app [.wfd l.label v] rfl (by simp [noScan])

theorem Marks.setName {E : Env} {w w' : S} (h : Marks E w) {i : Nat} {v : List Byte} (e : setName i v w = some w') : Marks E w' := by
  unfold Sinkctl.setName at e
  simp only [Option.bind_eq_bind, Option.bind_eq_some_iff] at e
  obtain ⟨l, -, c, -, e⟩ := e
  split at e
  · injection e with e; subst e; exact h
  · injection e with e; subst e; exact h.app [.name l.label v] rfl (by simp [noScan])

theorem Marks.put {E : Env} {w : S} (h : Marks E w) {l l2 : Link} (hl : l ∈ w.links) (hi : l2.id = l.id) (hs : l2.haveScan = l.haveScan) : Marks E (w.putLink l2) := by
  refine ⟨fun a ha => ?_, fun a ha => ?_, h.new⟩
  · obtain ⟨b, hb, rfl⟩ := List.mem_map.mp ha
    split
    · have := h.mark l hl
      rw [hs, hi]; exact this
    · exact h.mark b hb
  · obtain ⟨b, hb, rfl⟩ := List.mem_map.mp ha
    split
    · rw [hi]; exact h.lt l hl
    · exact h.lt b hb

theorem Marks.setManaged {E : Env} {w w' : S} (h : Marks E w) {i : Nat} {v : Bool} (e : setManaged E i v w = some w') : Marks E w' := by
  unfold Sinkctl.setManaged at e
  simp only [Option.bind_eq_bind, Option.bind_eq_some_iff] at e
  obtain ⟨l, h1, e⟩ := e
  have hm : l ∈ w.links := List.mem_of_find?_eq_some h1
  split at e
  · injection e with e; subst e; exact h
  · have h' : Marks E (act (.managed l.label v) w) := h.app [.managed l.label v] rfl (by simp [noScan])
    injection e with e
    subst e
    split
    · exact h'.put (l := l) hm rfl rfl
    · exact h'

theorem Marks.runOn {E : Env} {w w' : S} (h : Marks E w) {i : Nat} (e : runOn E i w = some w') : Marks E w' := by
  unfold Sinkctl.runOn at e
  split at e
  · injection e with e; subst e; exact h
  · simp only [Option.bind_eq_bind, Option.bind_eq_some_iff] at e
    obtain ⟨w1, h1, h2⟩ := e
    exact ((h.var (c := { w.app with runLink := some i }) rfl).setWfd h1).setScan h2

theorem Marks.endSession {E : Env} {w w' : S} (h : Marks E w) {p : Peer} (e : endSession E p w = some w') : Marks E w' := by
  unfold Sinkctl.endSession at e
  simp only [Option.bind_eq_bind, Option.bind_eq_some_iff] at e
  obtain ⟨w1, h1, h2⟩ := e
  refine Marks.setScan ?_ h2
  have h0 : Marks E (killPlayer ({ w with app := { w.app with sinkT := none } } : S)) := by
    unfold killPlayer
    split
    · exact h.var rfl
    · rename_i q hq
      exact h.app [.kill q] rfl (by simp [noScan])
  have h3 : Marks E w1 := by
    unfold closeSink at h1
    split at h1
    · cases h1
    · injection h1 with h1
      subst h1
      exact h0.app [.close] rfl (by simp [noScan])
  exact h3.app [.stopped p.id] rfl (by simp [noScan])

theorem Marks.sinkFn {E : Env} {w w' : S} (h : Marks E w) (e : sinkFn E w = some w') : Marks E w' := by
  unfold Sinkctl.sinkFn at e
  simp only at e
  split at e
  · injection e with e; subst e; exact h.var rfl
  · simp only [Option.bind_eq_bind, Option.bind_eq_some_iff] at e
    obtain ⟨p, -, e⟩ := e
    split at e
    · injection e with e; subst e; exact h.var rfl
    · split at e
      · cases e
      · split at e
        · injection e with e; subst e; exact h.var rfl
        · split at e
          · injection e with e; subst e; exact h.app [.connect p.rem] rfl (by simp [noScan])
          · split at e
            · injection e with e; subst e; exact h.app [.connect p.rem] rfl (by simp [noScan])
            · injection e with e; subst e; exact h.app [.connect p.rem] rfl (by simp [noScan])

theorem hooks_marks (E : Env) : Holds (hooks E) (Marks E) := by
  refine ⟨?_, fun l u w hl h => h.put hl rfl rfl⟩
  constructor
  · intro p w w' h ha; injection h with h; subst h; exact ha
  · intro p w w' h ha
    change onPeerFree E p w = some w' at h
    unfold onPeerFree at h
    split at h
    · injection h with h; subst h; exact ha
    · obtain ⟨w1, h1, h2⟩ := Option.bind_eq_some_iff.mp h
      have a1 : Marks E w1 := by
        unfold dropPending at h1
        split at h1
        · exact (ha.var (c := { w.app with pending := none, scanT := false }) rfl).setScan h1
        · injection h1 with h1; subst h1; exact ha
      split at h2
      · exact a1.endSession h2
      · injection h2 with h2; subst h2; exact a1
  · intro p w w' h ha
    change onConnected p w = some w' at h
    unfold onConnected at h
    split at h
    · injection h with h; subst h; exact ha
    · simp only at h
      split at h
      · injection h with h; subst h; exact ha.var rfl
      · injection h with h; subst h; exact ha.app [.running p.id] rfl (by simp [noScan])
  · intro p w w' h ha
    change onDisconnected E p w = some w' at h
    unfold onDisconnected at h
    split at h
    · injection h with h; subst h; exact ha
    · split at h
      · exact ha.endSession h
      · injection h with h; subst h; exact ha
  · intro l w w' h ha
    change onLinkNew E w = some w' at h
    unfold onLinkNew at h
    split at h
    · split at h
      · exact ha.runOn h
      · injection h with h; subst h; exact ha
    · injection h with h; subst h; exact ha
  · intro l w w' h ha
    change onLinkFree l w = some w' at h
    unfold onLinkFree at h
    split at h
    · injection h with h; subst h; exact ha.var rfl
    · injection h with h; subst h; exact ha
  · intro p a b w w' h ha; injection h with h; subst h; exact ha
  · intro p a b w w' h ha
    change onGoNeg p w = some w' at h
    unfold onGoNeg at h
    split at h
    · injection h with h; subst h; exact ha
    · split at h
      · injection h with h; subst h; exact ha
      · injection h with h; subst h; exact ha.app [.accept p.label (bytes "auto") []] rfl (by simp [noScan])
  · intro p a w w' h ha
    change onFailure E p w = some w' at h
    unfold onFailure at h
    split at h
    · injection h with h; subst h; exact ha
    · split at h
      · injection h with h; subst h; exact ha
      · exact (ha.var (c := { w.app with scanT := false }) rfl).setScan h
  · intro p w h
    refine ⟨fun a ha => ?_, fun a ha => ?_, h.new⟩
    · obtain ⟨b, hb, rfl⟩ := List.mem_map.mp ha; exact h.mark b hb
    · obtain ⟨b, hb, rfl⟩ := List.mem_map.mp ha; exact h.lt b hb
  · intro p w h
    refine ⟨fun a ha => ?_, fun a ha => ?_, h.new⟩
    · obtain ⟨b, hb, rfl⟩ := List.mem_map.mp ha; split <;> exact h.mark b hb
    · obtain ⟨b, hb, rfl⟩ := List.mem_map.mp ha; split <;> exact h.lt b hb
  · intro p w h
    refine ⟨fun a ha => ?_, fun a ha => ?_, h.new⟩
    · obtain ⟨b, hb, rfl⟩ := List.mem_map.mp ha; exact h.mark b hb
    · obtain ⟨b, hb, rfl⟩ := List.mem_map.mp ha; exact h.lt b hb
  · intro i w h
    exact ⟨fun a ha => h.mark a ((List.mem_filter.mp ha).1), fun a ha => h.lt a ((List.mem_filter.mp ha).1), h.new⟩
  · intro l w hi hs h
    refine ⟨fun a ha => ?_, fun a ha => ?_, fun i hi => h.new i (Nat.le_of_succ_le hi)⟩
    · rcases List.mem_append.mp ha with ha | ha
      · exact h.mark a ha
      · rw [List.mem_singleton.mp ha, hs]
        exact (h.new l.id (by omega)).symm
    · change a.id < w.next + 1
      rcases List.mem_append.mp ha with ha | ha
      · exact Nat.lt_succ_of_lt (h.lt a ha)
      · rw [List.mem_singleton.mp ha]; omega
  · intro w h
    exact ⟨h.mark, fun a ha => Nat.lt_succ_of_lt (h.lt a ha), fun i hi => h.new i (Nat.le_of_succ_le hi)⟩

theorem step_marks {E : Env} {e : Ev} {w w' : S} (h : Marks E w) (hs : step E w e = some w') : Marks E w' := by
  cases e with
  | msg m =>
    simp only [step, Option.map_eq_some_iff, Prod.exists] at hs
    obtain ⟨c, w1, h1, rfl⟩ := hs
    exact (hooks_marks E).receive h1 h
  | run n =>
    simp only [step, cmdRun] at hs
    split at hs
    · obtain ⟨-, -, rfl⟩ := Option.map_eq_some_iff.mp hs; exact h
    · split at hs
      · injection hs with hs; subst hs; exact h
      · split at hs
        · injection hs with hs; subst hs; exact h
        · exact h.runOn hs
  | bind n =>
    simp only [step, cmdBind] at hs
    split at hs
    · obtain ⟨-, -, rfl⟩ := Option.map_eq_some_iff.mp hs; exact h
    · split at hs
      · injection hs with hs; subst hs; exact h.var rfl
      · split at hs
        · injection hs with hs; subst hs; exact h.var rfl
        · exact (h.var (c := { w.app with bound := some n }) rfl).runOn hs
  | setManaged n v =>
    simp only [step, cmdManaged] at hs
    split at hs
    · injection hs with hs; subst hs; exact h
    · exact h.setManaged hs
  | setName a =>
    simp only [step] at hs
    unfold cmdName at hs
    split at hs
    · injection hs with hs; subst hs; exact h
    · split at hs
      · injection hs with hs; subst hs; exact h
      · exact h.setName hs
    · split at hs
      · injection hs with hs; subst hs; exact h
      · exact h.setName hs
  | scanTimer =>
    simp only [step, scanTimer] at hs
    split at hs
    · injection hs with hs; subst hs; exact h
    · obtain ⟨w1, h1, h2⟩ := Option.bind_eq_some_iff.mp hs
      have h3 : Marks E w1 := by
        unfold expire at h1
        split at h1
        · injection h1 with h1; subst h1; exact h.var rfl
        · simp only at h1
          split at h1
          · obtain ⟨-, -, rfl⟩ := Option.map_eq_some_iff.mp h1; exact h.var rfl
          · injection h1 with h1; subst h1; exact h.var rfl
      split at h2
      · injection h2 with h2; subst h2; exact h3
      · exact h3.setScan h2
  | sinkTimer =>
    simp only [step] at hs
    split at hs
    · injection hs with hs; subst hs; exact h
    · exact h.sinkFn hs
  | up =>
    simp only [step] at hs
    split at hs
    · injection hs with hs; subst hs; exact h
    · injection hs with hs; subst hs; exact h.var rfl
  | down =>
    simp only [step] at hs
    split at hs
    · injection hs with hs; subst hs; exact h
    · split at hs
      · exact Marks.sinkFn (h.var (c := { w.app with isOpen := false }) rfl) hs
      · injection hs with hs; subst hs; exact h.var rfl
  | resolution =>
    simp only [step] at hs
    split at hs
    · injection hs with hs; subst hs; exact h
    · split at hs
      · injection hs with hs; subst hs; exact h
      · rename_i n hn
        injection hs with hs; subst hs
        exact h.app [.spawn (n + 1)] rfl (by simp [noScan])

theorem run_marks {E : Env} (es : List Ev) {w w' : S} (h : Marks E w) (hs : run E w es = some w') : Marks E w' := by
  induction es generalizing w with
  | nil => rw [run] at hs; injection hs with hs; subst hs; exact h
  | cons e es ih =>
    rw [run] at hs
    obtain ⟨w1, h1, h2⟩ := Option.bind_eq_some_iff.mp hs
    exact ih (step_marks h h1) h2

end Verif.Sinkctl
