import Verif.Proof.RefsStep
/-!
# C137: a bus and its messages live as long as someone refers to them

Proved for every history of references taken and dropped, calls, cancellations, written messages and parsed
messages, with any number of messages: nothing that has been freed is ever touched, everything held is alive, and
the moment at which the bus is freed is told exactly.  It is not always the moment at which the last reference is
dropped: the witnesses at the end leak.
-/
namespace Verif.Refs.Props
open Verif.Refs Verif.Refs.Spec

variable {s : St} {h : Held} {f : Nat} {wpas : Bool}

/-- A run of operations, for examples. -/
def run (f : Nat) (wpas : Bool) : List Op → Option (St × Held)
  | [] => some (opened, ⟨1, fun _ => 0⟩)
  | op :: t => (run f wpas t).bind fun r => Spec.step f wpas r.1 r.2 op

/-- What the examples look at: is the bus alive, its count, the queues, the counts of the first messages. -/
structure Look where
  alive : Bool
  bref : Nat
  outgoing : List Nat
  waiting : List Nat
  refs : List (Option Nat)
  deriving DecidableEq

def look (r : Option (St × Held)) : Option Look :=
  r.map fun r => ⟨r.1.alive, r.1.bref, r.1.outgoing, r.1.waiting, [0, 1, 2].map fun m => (r.1.heap m).map Item.ref⟩

/-! ## Nothing freed is touched -/

/-- Whatever has happened, a legal operation is defined: it reads and writes no freed memory. -/
theorem refs_safe (r : Reach (f + 2) wpas s h) (op : Op) (a : Allowed wpas op) (l : Legal s h op) :
    ∃ s' h', Spec.step (f + 2) wpas s h op = some (s', h') := by
  obtain ⟨i, w⟩ := reach_inv r
  obtain ⟨s', h', e, _⟩ := step_ex wpas op i w a l
  exact ⟨s', h', e f⟩

/-- Freeing the bus calls the function that frees it again for each message, but never deeper than that. -/
theorem refs_depth (r : Reach (f + 2) wpas s h) (op : Op) (a : Allowed wpas op) (l : Legal s h op) (k : Nat) :
    Spec.step (k + 2) wpas s h op = Spec.step 2 wpas s h op := by
  obtain ⟨i, w⟩ := reach_inv r
  obtain ⟨s', h', e, _⟩ := step_ex wpas op i w a l
  rw [e k, e 0]

/-- What is held, or in a queue, is alive, and its count is not less than the references held. -/
theorem refs_held (r : Reach (f + 2) wpas s h) :
    (0 < h.bus → s.alive = true ∧ h.bus ≤ s.bref) ∧
    (∀ m, 0 < h.msg m → s.alive = true ∧ ∃ it, s.heap m = some it ∧ h.msg m ≤ it.ref) ∧
    (∀ m, Queued s m → s.alive = true ∧ ∃ it, s.heap m = some it ∧ 0 < it.ref) ∧
    (s.alive = true → 0 < s.bref) ∧
    (s.alive = false → Gone s) := by
  obtain ⟨i, _⟩ := reach_inv r
  rcases i with ⟨L, g, hp⟩ | d
  · refine ⟨fun _ => ⟨g.alive, by have := g.bref; omega⟩, fun m hm => ?_, fun m hm => ?_, fun _ => hp, fun hh => ?_⟩
    · obtain ⟨⟨it, e1⟩, _⟩ := g.heap_of (m := m) (Or.inl hm)
      exact ⟨g.alive, it, e1, by have := (g.ref m it e1 (by simp)).1; omega⟩
    · obtain ⟨⟨it, e1⟩, _⟩ := g.heap_of (m := m) (Or.inr hm)
      exact ⟨g.alive, it, e1, (g.ref m it e1 (by simp)).2⟩
    · rw [g.alive] at hh; cases hh
  · refine ⟨fun hh => ?_, fun m hm => ?_, fun m hm => ?_, fun hh => ?_, fun _ => ⟨d.alive, d.heap⟩⟩
    · have := d.bus; omega
    · have := d.msg m; omega
    · unfold Queued at hm; rw [d.out, d.wait] at hm; simp at hm
    · rw [d.alive] at hh; cases hh

/-! ## When the bus is freed -/

/-- Dropping a reference of the bus frees it if and only if nobody else refers to it or to one of its messages and
none of them is in both queues; everything is freed then.  Otherwise one reference less is counted, nothing else. -/
theorem bus_release (r : Reach (f + 2) wpas s h) (hb : 0 < h.bus) :
    ∃ s', Spec.step (f + 2) wpas s h .unref = some (s', { h with bus := h.bus - 1 }) ∧
      (Gone s' ↔ h.bus = 1 ∧ (∀ m, h.msg m = 0) ∧ ∀ m, ¬ Twice s m) ∧
      (¬ Gone s' → s' = { s with bref := s.bref - 1 } ∧ 0 < s'.bref) := by
  obtain ⟨i, _⟩ := reach_inv r
  obtain ⟨L, g, hp⟩ := i.good (Or.inl hb)
  obtain ⟨s', e1, i1, _, ha⟩ := busUnref_ex i hb
  have hG : Gone s' ↔ s'.alive = false := by
    refine ⟨fun hh => hh.1, fun hh => ?_⟩
    rcases i1 with ⟨_, g1, _⟩ | d
    · rw [g1.alive] at hh; cases hh
    · exact ⟨d.alive, d.heap⟩
  have hN : Nobody s { h with bus := h.bus - 1 } ↔ h.bus = 1 ∧ (∀ m, h.msg m = 0) ∧ ∀ m, ¬ Twice s m := by
    unfold Nobody
    constructor
    · rintro ⟨h1, h2, h3⟩; exact ⟨by simp only at h1; omega, h2, h3⟩
    · rintro ⟨h1, h2, h3⟩; exact ⟨by simp only; omega, h2, h3⟩
  refine ⟨s', by simp only [Spec.step, e1 f]; rfl, by rw [hG, ha, hN], fun hn => ?_⟩
  have g1 : Good s { h with bus := h.bus - 1 } 1 none L :=
    ⟨g.alive, g.nodup, g.mem, by have := g.bref; show s.bref = h.bus - 1 + L.length + 1; omega, g.ref, g.out, g.wait, g.nodupOut,
      g.nodupWait, g.parser, g.gone, g.zombie⟩
  obtain ⟨e2, h2⟩ := (unref_ex f g1).2 (fun hh => hn (hG.mpr (ha.mpr hh)))
  have := e1 f
  rw [e2] at this
  cases this
  exact ⟨rfl, by show 0 < s.bref - 1; omega⟩

/-- Dropping a reference of a message frees it if and only if it is the last one and the message is in no queue.
That frees the bus too if and only if nobody refers to it or to another message and none is in both queues. -/
theorem msg_release (r : Reach (f + 2) wpas s h) (m : Nat) (hm : 0 < h.msg m) :
    ∃ s', Spec.step (f + 2) wpas s h (.unrefMsg m) = some (s', h.put m (h.msg m - 1)) ∧
      (s'.heap m = none ↔ h.msg m = 1 ∧ ¬ Queued s m) ∧
      (Gone s' ↔ h.msg m = 1 ∧ ¬ Queued s m ∧ h.bus = 0 ∧ (∀ j, j ≠ m → h.msg j = 0) ∧ ∀ j, ¬ Twice s j) := by
  obtain ⟨i, _⟩ := reach_inv r
  obtain ⟨s', e1, i1, _, h1, ha⟩ := msgUnref_ex m i hm
  have hG : Gone s' ↔ s'.alive = false := by
    refine ⟨fun hh => hh.1, fun hh => ?_⟩
    rcases i1 with ⟨_, g1, _⟩ | d
    · rw [g1.alive] at hh; cases hh
    · exact ⟨d.alive, d.heap⟩
  refine ⟨s', by simp only [Spec.step, e1 f]; rfl, h1, ?_⟩
  rw [hG, ha]
  unfold Nobody
  constructor
  · rintro ⟨h1, h2, h3, h4, h5⟩
    refine ⟨h1, h2, h3, fun j hj => ?_, h5⟩
    have := h4 j
    rwa [put_msg, if_neg hj] at this
  · rintro ⟨h1, h2, h3, h4, h5⟩
    refine ⟨h1, h2, h3, fun j => ?_, h5⟩
    rw [put_msg]
    split
    · omega
    · rename_i hj; exact h4 j hj

/-- The bus of wpa_supplicant: the last reference frees it with all that is queued, if the bus itself is what is
dropped last. -/
theorem wpas_release (r : Reach (f + 2) true s h) (hb : 0 < h.bus) :
    ∃ s', Spec.step (f + 2) true s h .unref = some (s', { h with bus := h.bus - 1 }) ∧
      (Gone s' ↔ h.bus = 1 ∧ ∀ m, h.msg m = 0) := by
  obtain ⟨s', e, h1, _⟩ := bus_release r hb
  refine ⟨s', e, h1.trans ⟨fun hh => ⟨hh.1, hh.2.1⟩, fun hh => ⟨hh.1, hh.2, ?_⟩⟩⟩
  rintro m ⟨_, h2⟩
  rw [((reach_inv r).2 rfl).1] at h2
  simp at h2

/-- And if nobody refers to it but it has not been freed, because the last reference was that of a message still
queued, the next time the event loop calls it, it is. -/
theorem wpas_recovers (r : Reach (f + 2) true s h) (ha : s.alive = true) (hb : h.bus = 0) (hm : ∀ m, h.msg m = 0) :
    ∃ s1 h1 s2 h2, Spec.step (f + 2) true s h .ref = some (s1, h1) ∧
      Spec.step (f + 2) true s1 h1 .unref = some (s2, h2) ∧ Gone s2 := by
  have l : Legal s h .ref := Or.inr (Or.inr ha)
  obtain ⟨s1, h1, e1⟩ := refs_safe r .ref trivial l
  have r1 := Reach.step .ref r trivial l e1
  have hh : h1 = { h with bus := h.bus + 1 } := by
    simp only [Spec.step, Option.map_eq_some_iff] at e1
    obtain ⟨_, _, e2⟩ := e1
    cases e2
    rfl
  subst hh
  obtain ⟨s2, e2, g2⟩ := wpas_release r1 (Nat.succ_pos _)
  exact ⟨s1, _, s2, _, e1, e2, g2.mpr ⟨by simp only; omega, hm⟩⟩

/-! ## Cases, and where the claim fails -/

/-- Two messages queued with wpa_supplicant; the messages are dropped, then the bus: all is freed. -/
example : look (run 2 true [.unref, .unrefMsg 1, .unrefMsg 0, .call true 1, .new 1, .call true 0, .new 0])
    = some ⟨false, 0, [], [], [none, none, none]⟩ := by decide +kernel

/-- The same, before the bus is dropped. -/
example : look (run 2 true [.unrefMsg 1, .unrefMsg 0, .call true 1, .new 1, .call true 0, .new 0])
    = some ⟨true, 3, [0, 1], [], [some 1, some 1, none]⟩ := by decide +kernel

/-- An RTSP bus with one message half parsed, one sent and waiting for its answer; the bus is dropped: all is freed. -/
example : look (run 2 false [.unref, .parse 1, .written true 0, .unrefMsg 0, .call true 0, .new 0])
    = some ⟨false, 0, [], [], [none, none, none]⟩ := by decide +kernel

/-- A message outlives the bus that its creator has dropped. -/
example : look (run 2 false [.unref, .new 0]) = some ⟨true, 1, [], [], [some 1, none, none]⟩ := by decide +kernel

/-- The hypotheses of `bus_release` and the rest can be met: a state with two messages queued is reachable. -/
example : ∃ s h, Reach 2 true s h ∧ s.outgoing = [0, 1] ∧ h.bus = 1 :=
  ⟨_, _, .step (.call true 1) (.step (.new 1) (.step (.call true 0) (.step (.new 0) .opened trivial
    ⟨Or.inl (by decide), rfl⟩ rfl) trivial (Nat.succ_pos 0) rfl) trivial ⟨Or.inl (by decide), rfl⟩ rfl) trivial (Nat.succ_pos 0) rfl, rfl, rfl⟩

/-- A leak: a request that has not been written yet is in both queues of an RTSP bus.  When the bus is dropped
then, it is not freed, though nobody refers to anything; nor is it when it is called again. -/
theorem rtsp_leaks : ∃ s h, Reach 2 false s h ∧ h.bus = 0 ∧ (∀ m, h.msg m = 0) ∧ s.alive = true ∧
    ∃ s1 h1 s2 h2, Spec.step 2 false s h .ref = some (s1, h1) ∧ Spec.step 2 false s1 h1 .unref = some (s2, h2) ∧
      s2.alive = true := by
  refine ⟨_, _, .step .unref (.step (.unrefMsg 0) (.step (.call true 0) (.step (.new 0) .opened trivial
    ⟨Or.inl (by decide), rfl⟩ rfl) trivial (Nat.succ_pos 0) rfl) trivial (Nat.succ_pos 0) rfl) trivial (Nat.succ_pos 0) rfl, rfl, ?_, rfl,
    _, _, _, _, rfl, rfl, rfl⟩
  intro m
  by_cases hm : m = 0
  · subst hm; rfl
  · simp [Held.put, hm]

/-- For a while, a bus of wpa_supplicant leaks too: it is dropped while a queued message is still held, and
then that is dropped. -/
theorem wpas_leaks : ∃ s h, Reach 2 true s h ∧ h.bus = 0 ∧ (∀ m, h.msg m = 0) ∧ s.alive = true := by
  refine ⟨_, _, .step (.unrefMsg 0) (.step .unref (.step (.call true 0) (.step (.new 0) .opened trivial
    ⟨Or.inl (by decide), rfl⟩ rfl) trivial (Nat.succ_pos 0) rfl) trivial (Nat.succ_pos 0) rfl) trivial (Nat.succ_pos 0) rfl, rfl, ?_, rfl⟩
  intro m
  by_cases hm : m = 0
  · subst hm; rfl
  · simp [Held.put, hm]

end Verif.Refs.Props
