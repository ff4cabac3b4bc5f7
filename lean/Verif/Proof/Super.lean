import Verif.Spec.Super
import Verif.Props.Ratelimit
/-! Helper lemmas for `Props/Super`: the setup counter and the phases. -/
namespace Verif.Super
open Verif.C Verif.Ratelimit Spec

def tstep (x : Nat × Nat) (o : Out) : Nat × Nat :=
  match o with
  | .asked _ => (x.1 + 1, x.2)
  | .answered _ => (x.1 - 1, x.2)
  | .closed => (0, x.2 + x.1)
  | _ => x

theorem tally_snoc (l : List Out) (o : Out) : tally (l ++ [o]) = tstep (tally l) o := by
  unfold tally
  rw [List.foldl_append]
  rfl

theorem begun_snoc (l : List Out) (o : Out) : begun (l ++ [o]) = match o with | .asked .status => true | .closed => false | _ => begun l := by
  unfold begun
  rw [List.foldl_append]
  rfl

theorem told_snoc (l : List Out) (o : Out) : told (l ++ [o]) = match o, told l with
  | .started, some false => some true
  | .stopped, some true => some false
  | .started, _ => none
  | .stopped, _ => none
  | _, b => b := by
  unfold told
  rw [List.foldl_append]
  rfl

/-- The counter counts what waits and what was lost; the announcements tell the truth. -/
structure K (s : Sup) : Prop where
  cnt : s.cnt = (tally s.log).1 + (tally s.log).2
  tld : told s.log = some s.running

/-- The six phases. -/
inductive Phase (s : Sup) : Prop
  | off : s.proc = .off → s.child = false → s.timer = none → s.glob = none → s.dev = .none → s.running = false → begun s.log = false → (tally s.log).1 = 0 → Phase s
  | down (t : Nat) : s.proc = .down → s.child = false → s.timer = some t → s.glob = none → s.dev = .none → s.running = false → begun s.log = false → (tally s.log).1 = 0 → Phase s
  | starting (t : Nat) : s.proc = .up → s.timer = some t → s.glob = none → s.dev = .none → s.running = false → begun s.log = false → (tally s.log).1 = 0 → Phase s
  | attaching : s.proc = .up → s.timer = none → s.glob = some [.attach] → s.dev = .none → s.running = false → begun s.log = false → (tally s.log).1 = 0 → Phase s
  | devAttach : s.proc = .up → s.timer = none → s.glob = some [] → s.dev = .own true → s.running = false → begun s.log = false → (tally s.log).1 = 0 → Phase s
  | setup (q : List Req) : s.proc = .up → s.timer = none → s.glob = some q → Req.attach ∉ q → (s.dev = .shared ∨ s.dev = .own false) → begun s.log = true →
      (tally s.log).1 = q.length → (s.running = true ↔ s.cnt = 0) → Phase s

theorem failed_eq (s : Sup) : ∃ rl d a b, s.failed = { s with restart := rl, timer := some (s.now + d), proc := .down, child := false, glob := none, dev := .none, running := false, log := s.log ++ [.failed s.now d] ++ a ++ [.closed] ++ b } ∧
    (rl, d) = ((test s.restart s.now).1, if (test s.restart s.now).2 then 200 * 1000 else 30 * 1000 * 1000) ∧
    a = (if s.proc = .up then [.kill] else []) ∧ b = (if s.running then [.stopped] else []) := by
  refine ⟨_, _, _, _, ?_, rfl, rfl, rfl⟩
  unfold Sup.failed Sup.term Sup.close Sup.quit Sup.emit
  rcases test s.restart s.now with ⟨rl, ok⟩
  cases hp : s.proc <;> cases hr : s.running <;> simp [hr, hp]

/-- Failure, from whatever state. -/
theorem K.failed {s : Sup} (h : K s) : K s.failed ∧ Phase s.failed := by
  obtain ⟨rl, d, a, b, e, _, ha, hb⟩ := failed_eq s
  have hc := h.cnt
  have ht := h.tld
  have key : tally s.failed.log = (0, (tally s.log).2 + (tally s.log).1) ∧ begun s.failed.log = false ∧ told s.failed.log = some false := by
    rw [e]
    subst ha; subst hb
    cases hp : s.proc <;> cases hr : s.running <;> rw [hr] at ht <;>
      simp [← List.append_assoc, tally_snoc, begun_snoc, told_snoc, tstep, ht]
  obtain ⟨k1, k2, k3⟩ := key
  constructor
  · constructor
    · rw [k1]
      have : s.failed.cnt = s.cnt := by rw [e]
      rw [this, hc, Nat.zero_add, Nat.add_comm]
    · rw [k3, e]
  · refine Phase.down (s.now + d) ?_ ?_ ?_ ?_ ?_ ?_ k2 (by rw [k1]) <;> rw [e]

/-- Setup is under way, with `n` requests counted that are not queued. -/
structure Setup (s : Sup) (q : List Req) (n : Nat) : Prop where
  k : K s
  up : s.proc = .up
  tm : s.timer = none
  gl : s.glob = some q
  na : Req.attach ∉ q
  dev : s.dev = .shared ∨ s.dev = .own false
  bg : begun s.log = true
  w : (tally s.log).1 = q.length + n

theorem Setup.count {s : Sup} {q : List Req} {n : Nat} (h : Setup s q n) (r : Req) : Setup (s.count r) q (n + 1) := by
  refine ⟨⟨?_, ?_⟩, h.up, h.tm, h.gl, h.na, h.dev, ?_, ?_⟩
  · show s.cnt + 1 = _
    simp only [Sup.count, Sup.emit, tally_snoc, tstep]
    rw [h.k.cnt]; omega
  · simp only [Sup.count, Sup.emit, told_snoc]; exact h.k.tld
  · simp only [Sup.count, Sup.emit, begun_snoc]; split <;> simp_all [h.bg]
  · simp only [Sup.count, Sup.emit, tally_snoc, tstep, h.w]; omega

theorem Setup.queue {s : Sup} {q : List Req} {n : Nat} (h : Setup s q (n + 1)) {r : Req} (hr : r ≠ .attach) : Setup (s.queue r) (q ++ [r]) n := by
  refine ⟨⟨h.k.cnt, h.k.tld⟩, h.up, h.tm, by simp [Sup.queue, h.gl], ?_, h.dev, h.bg, ?_⟩
  · simp only [List.mem_append, List.mem_singleton]
    rintro (h1 | h1)
    · exact h.na h1
    · exact hr h1.symm
  · show (tally s.log).1 = _
    rw [h.w]; simp; omega

/-- The order of counting and queueing does not matter. -/
theorem Setup.queueCount {s : Sup} {q : List Req} {n : Nat} (h : Setup s q n) {r : Req} (hr : r ≠ .attach) : Setup ((s.queue r).count r) (q ++ [r]) n := by
  have := (h.count r).queue hr
  exact this

theorem Setup.flags {s : Sup} {q : List Req} {n : Nat} (h : Setup s q n) (a b : Bool) : Setup { s with hasP2p := a, hasWfd := b } q n :=
  ⟨⟨h.k.cnt, h.k.tld⟩, h.up, h.tm, h.gl, h.na, h.dev, h.bg, h.w⟩

theorem Setup.tryReady {s : Sup} {q : List Req} (h : Setup s q 0) (hrun : s.running = true → s.cnt = 0) : K s.tryReady ∧ Phase s.tryReady := by
  unfold Sup.tryReady
  have ht := h.k.tld
  split
  · rename_i hr
    exact ⟨h.k, Phase.setup q h.up h.tm h.gl h.na h.dev h.bg h.w ⟨hrun, fun _ => hr⟩⟩
  · rename_i hr
    have hr' : s.running = false := by simpa using hr
    split
    · rename_i hc
      exact ⟨h.k, Phase.setup q h.up h.tm h.gl h.na h.dev h.bg h.w ⟨fun e => absurd e hr, fun e => by omega⟩⟩
    · rename_i hc
      rw [hr'] at ht
      refine ⟨⟨?_, ?_⟩, Phase.setup q h.up h.tm h.gl h.na h.dev ?_ ?_ ?_⟩
      · simp only [Sup.emit, tally_snoc, tstep]; exact h.k.cnt
      · simp only [Sup.emit, told_snoc, ht]
      · simp only [Sup.emit, begun_snoc]; exact h.bg
      · simp only [Sup.emit, tally_snoc, tstep]; exact h.w
      · simp only [Sup.emit]; simp; omega

/-- The setup begins. -/
theorem begin_case {s : Sup} (hk : K s) (up : s.proc = .up) (tm : s.timer = none) (gl : s.glob = some []) (dev : s.dev = .shared ∨ s.dev = .own false)
    (hr : s.running = false) (hw : (tally s.log).1 = 0) (ok : Bool) : K (s.begin ok) ∧ Phase (s.begin ok) := by
  have h1 : Setup (s.count .status) [] 1 := by
    refine ⟨⟨?_, ?_⟩, up, tm, gl, by simp, dev, ?_, ?_⟩
    · show s.cnt + 1 = _
      simp only [Sup.count, Sup.emit, tally_snoc, tstep]
      rw [hk.cnt]; omega
    · simp only [Sup.count, Sup.emit, told_snoc]; exact hk.tld
    · simp only [Sup.count, Sup.emit, begun_snoc]
    · simp only [Sup.count, Sup.emit, tally_snoc, tstep, hw]; rfl
  unfold Sup.begin
  cases ok with
  | false => exact h1.k.failed
  | true =>
    have h2 : Setup ((s.count .status).queue .status) ([] ++ [.status]) 0 := h1.queue (by decide)
    refine h2.tryReady ?_
    intro e
    have : ((s.count .status).queue .status).running = s.running := rfl
    rw [this, hr] at e; cases e

theorem onStatus_case {s : Sup} {q : List Req} (h : Setup s q 0) (hr : s.running = false) (a : Ans) (good : Nat) : K (s.onStatus a good) ∧ Phase (s.onStatus a good) := by
  have p1 : ∀ r, (if a.p2p then s.statusP2p good else (s, true)) = r → (∃ q' n, Setup r.1 q' n ∧ (r.2 = true → n = 0)) ∧ r.1.running = false := by
    intro r e
    subst e
    split
    · have h0 : Setup { s with hasP2p := true } q 0 := h.flags true s.hasWfd
      unfold Sup.statusP2p
      by_cases g0 : good = 0
      · simp only [if_pos g0]
        exact ⟨⟨q, 0, h0, fun _ => rfl⟩, hr⟩
      · simp only [if_neg g0]
        have h1 := h0.count .freq
        by_cases g1 : good = 1
        · simp only [if_pos g1]
          exact ⟨⟨q, _, h1, fun e => by cases e⟩, hr⟩
        · simp only [if_neg g1]
          have h2 := (h1.queue (r := .freq) (by decide)).count .peers
          by_cases g2 : good = 2
          · simp only [if_pos g2]
            exact ⟨⟨_, _, h2, fun e => by cases e⟩, hr⟩
          · simp only [if_neg g2]
            exact ⟨⟨_, _, h2.queue (by decide), fun _ => rfl⟩, hr⟩
    · exact ⟨⟨q, 0, h, fun _ => rfl⟩, hr⟩
  unfold Sup.onStatus
  generalize hrr : (if a.p2p then s.statusP2p good else (s, true)) = r
  obtain ⟨⟨q', n, hs, hn⟩, hrun⟩ := p1 r hrr
  simp only []
  split
  · exact hs.k.failed
  · rename_i h2
    have hn0 : n = 0 := hn (by simpa using h2)
    subst hn0
    split
    · have h4 : Setup ({ r.1 with hasWfd := true } : Sup) q' 0 := hs.flags r.1.hasP2p true
      generalize decide (good > 3 ∨ (good > 0 ∧ a.p2p = false)) = b
      cases b with
      | false => exact (h4.count .wfd).k.failed
      | true =>
        refine ((h4.count .wfd).queue (by decide)).tryReady ?_
        intro e
        have : r.1.running = true := e
        rw [hrun] at this; cases this
    · rw [if_neg (by simp)]
      exact hs.tryReady (by intro e; rw [hrun] at e; cases e)

/-- The reply to the first request is taken. -/
theorem Setup.uncount {s : Sup} {q : List Req} {r : Req} (h : Setup s (r :: q) 0) : Setup (({ s with glob := some q } : Sup).uncount r) q 0 := by
  have hw := h.w
  simp only [List.length_cons] at hw
  refine ⟨⟨?_, ?_⟩, h.up, h.tm, rfl, fun e => h.na (List.mem_cons_of_mem _ e), h.dev, ?_, ?_⟩
  · show (if s.cnt = 0 then W64 - 1 else s.cnt - 1) = _
    simp only [Sup.uncount, Sup.emit, tally_snoc, tstep]
    have hc := h.k.cnt
    rw [if_neg (by omega)]
    omega
  · simp only [Sup.uncount, Sup.emit, told_snoc]; exact h.k.tld
  · simp only [Sup.uncount, Sup.emit, begun_snoc]; exact h.bg
  · simp only [Sup.uncount, Sup.emit, tally_snoc, tstep, hw]; omega

theorem stop_eq (s : Sup) : ∃ a b, s.stop = { s with timer := none, proc := .off, child := false, glob := none, dev := .none, running := false, log := s.log ++ [.closed] ++ a ++ b } ∧
    a = (if s.proc = .up then [.kill] else []) ∧ b = (if s.running then [.stopped] else []) := by
  refine ⟨_, _, ?_, rfl, rfl⟩
  unfold Sup.stop Sup.term Sup.close Sup.quit Sup.emit
  cases hp : s.proc <;> cases hr : s.running <;> simp [hr, hp]

theorem K.stop {s : Sup} (h : K s) : K s.stop ∧ Phase s.stop := by
  obtain ⟨a, b, e, ha, hb⟩ := stop_eq s
  have hc := h.cnt
  have ht := h.tld
  have key : tally s.stop.log = (0, (tally s.log).2 + (tally s.log).1) ∧ begun s.stop.log = false ∧ told s.stop.log = some false := by
    rw [e]
    subst ha; subst hb
    cases hp : s.proc <;> cases hr : s.running <;> rw [hr] at ht <;>
      simp [← List.append_assoc, tally_snoc, begun_snoc, told_snoc, tstep, ht]
  obtain ⟨k1, k2, k3⟩ := key
  constructor
  · constructor
    · rw [k1]
      have : s.stop.cnt = s.cnt := by rw [e]
      rw [this, hc, Nat.zero_add, Nat.add_comm]
    · rw [k3, e]
  · refine Phase.off ?_ ?_ ?_ ?_ ?_ ?_ k2 (by rw [k1]) <;> rw [e]

theorem K.same {s s' : Sup} (h : K s) (h1 : s'.cnt = s.cnt) (h2 : s'.log = s.log) (h3 : s'.running = s.running) : K s' :=
  ⟨by rw [h1, h2]; exact h.cnt, by rw [h2, h3]; exact h.tld⟩

theorem spawn_case {s : Sup} (o : Spawn) (hk : K s) (hp : s.proc ≠ .up) :
    K (s.spawn o).1 ∧ tally (s.spawn o).1.log = tally s.log ∧ begun (s.spawn o).1.log = begun s.log ∧ (s.spawn o).1.running = s.running ∧
    (s.spawn o).1.glob = s.glob ∧ (s.spawn o).1.dev = s.dev ∧ (s.spawn o).1.timer = s.timer ∧
    ((s.spawn o).1.proc = .up ∨ (s.spawn o).1 = s ∧ (s.spawn o).2 = false) ∧ ((s.spawn o).2 = true → (s.spawn o).1.proc = .up) := by
  unfold Sup.spawn
  rw [if_neg hp]
  cases o with
  | refused => exact ⟨hk, rfl, rfl, rfl, rfl, rfl, rfl, Or.inr ⟨rfl, rfl⟩, fun e => by cases e⟩
  | ok =>
    refine ⟨⟨?_, ?_⟩, ?_, ?_, rfl, rfl, rfl, rfl, Or.inl rfl, fun _ => rfl⟩
    all_goals simp only [Sup.emit, tally_snoc, tstep, told_snoc, begun_snoc]
    · exact hk.cnt
    · exact hk.tld
  | unwatched =>
    refine ⟨⟨?_, ?_⟩, ?_, ?_, rfl, rfl, rfl, rfl, Or.inl rfl, fun e => by cases e⟩
    all_goals simp only [Sup.emit, tally_snoc, tstep, told_snoc, begun_snoc]
    · exact hk.cnt
    · exact hk.tld

theorem fire_up {s : Sup} {o : Spawn} {opened : Bool} (a : s.proc = .up) (f : s.running = false) :
    s.fire o opened = if opened then { s with glob := some [.attach], timer := none }
      else ({ s with openCnt := min (s.openCnt + 1) 1000, timer := some (s.now + min (s.openCnt + 1) 1000 * 200 * 1000) } : Sup).emit
        (.openFailed s.now (min (s.openCnt + 1) 1000 * 200 * 1000)) := by
  unfold Sup.fire
  split
  · rename_i h; rw [a] at h; cases h
  · rw [f]; rfl
  · rename_i h; rw [a] at h; cases h

theorem fire_down {s : Sup} {o : Spawn} {opened : Bool} (a : s.proc = .down) :
    s.fire o opened = if (s.spawn o).2 then { (s.spawn o).1 with timer := some ((s.spawn o).1.now + 200 * 1000) }
      else ({ (s.spawn o).1 with exec := (test (s.spawn o).1.exec (s.spawn o).1.now).1, timer := some ((s.spawn o).1.now + (if (test (s.spawn o).1.exec (s.spawn o).1.now).2 then 1000 * 1000 else 60 * 1000 * 1000)) } : Sup).emit
        (.spawnFailed (s.spawn o).1.now (if (test (s.spawn o).1.exec (s.spawn o).1.now).2 then 1000 * 1000 else 60 * 1000 * 1000)) := by
  unfold Sup.fire
  split
  · rfl
  · rename_i h; rw [a] at h; cases h
  · rename_i h; rw [a] at h; cases h

/-- Every event keeps the invariant. -/
theorem step_inv {s : Sup} (hk : K s) (hp : Phase s) (op : Op) : K (s.step op) ∧ Phase (s.step op) := by
  have noop : K s ∧ Phase s := ⟨hk, hp⟩
  cases op with
  | wait d =>
    refine ⟨hk.same rfl rfl rfl, ?_⟩
    cases hp with
    | off a b c d e f g i => exact .off a b c d e f g i
    | down t a b c d e f g i => exact .down t a b c d e f g i
    | starting t a c d e f g i => exact .starting t a c d e f g i
    | attaching a c d e f g i => exact .attaching a c d e f g i
    | devAttach a c d e f g i => exact .devAttach a c d e f g i
    | setup q a c d e f g i j => exact .setup q a c d e f g i j
  | start prep o =>
    show K (s.start prep o) ∧ Phase (s.start prep o)
    unfold Sup.start
    split
    · exact noop
    · rename_i hoff
      have hoff : s.proc = .off := by simpa using hoff
      cases hp with
      | off a b c d e f g i =>
        have k1 : K (({ s with restart := reset s.restart, exec := reset s.exec } : Sup).emit .userStart) := by
          constructor
          · simp only [Sup.emit, tally_snoc, tstep]; exact hk.cnt
          · simp only [Sup.emit, told_snoc]; exact hk.tld
        simp only []
        split
        · exact k1.stop
        · have k2 : K ({ (({ s with restart := reset s.restart, exec := reset s.exec } : Sup).emit .userStart) with timer := some (s.now + 200 * 1000) } : Sup) := k1.same rfl rfl rfl
          obtain ⟨m1, m2, m3, m4, m5, m6, m7, _, m9⟩ := spawn_case o k2 (by show s.proc ≠ .up; rw [a]; decide)
          split
          · rename_i hb
            refine ⟨m1, Phase.starting _ (m9 hb) (m7.trans rfl) (m5.trans d) (m6.trans e) (m4.trans f) ?_ ?_⟩
            · exact m3.trans (by simp only [Sup.emit, begun_snoc]; exact g)
            · exact (congrArg Prod.fst m2).trans (by simp only [Sup.emit, tally_snoc, tstep]; exact i)
          · exact m1.stop
      | down t a => rw [a] at hoff; cases hoff
      | starting t a => rw [a] at hoff; cases hoff
      | attaching a => rw [a] at hoff; cases hoff
      | devAttach a => rw [a] at hoff; cases hoff
      | setup q a => rw [a] at hoff; cases hoff
  | stop => exact hk.stop
  | fire o opened =>
    show K (if s.timer.any (· ≤ s.now) then s.fire o opened else s) ∧ Phase (if s.timer.any (· ≤ s.now) then s.fire o opened else s)
    split
    · rename_i hdue
      cases hp with
      | off a b c d e f g i => rw [c] at hdue; cases hdue
      | attaching a c d e f g i => rw [c] at hdue; cases hdue
      | devAttach a c d e f g i => rw [c] at hdue; cases hdue
      | setup q a c d e f g i j => rw [c] at hdue; cases hdue
      | down t a b c d e f g i =>
        obtain ⟨m1, m2, m3, m4, m5, m6, m7, m8, m9⟩ := spawn_case o hk (by rw [a]; decide)
        rw [fire_down a]
        split
        · rename_i hb
          exact ⟨m1.same rfl rfl rfl, Phase.starting _ (m9 hb) rfl (m5.trans d) (m6.trans e) (m4.trans f) (m3.trans g) ((congrArg Prod.fst m2).trans i)⟩
        · have k3 : ∀ (rl : RL) (dd : Nat), K (({ (s.spawn o).1 with exec := rl, timer := some ((s.spawn o).1.now + dd) } : Sup).emit (.spawnFailed (s.spawn o).1.now dd)) := by
            intro rl dd
            constructor
            · simp only [Sup.emit, tally_snoc, tstep]; exact m1.cnt
            · simp only [Sup.emit, told_snoc]; exact m1.tld
          refine ⟨k3 _ _, ?_⟩
          rcases m8 with m8 | ⟨m8, _⟩
          · refine Phase.starting _ m8 rfl (m5.trans d) (m6.trans e) (m4.trans f) ?_ ?_
            · simp only [Sup.emit, begun_snoc]; exact m3.trans g
            · simp only [Sup.emit, tally_snoc, tstep]; exact (congrArg Prod.fst m2).trans i
          · rw [m8]
            refine Phase.down _ a b rfl d e f ?_ ?_
            · simp only [Sup.emit, begun_snoc]; exact g
            · simp only [Sup.emit, tally_snoc, tstep]; exact i
      | starting t a c d e f g i =>
        rw [fire_up a f]
        split
        · exact ⟨hk.same rfl rfl rfl, Phase.attaching a rfl rfl e f g i⟩
        · refine ⟨⟨?_, ?_⟩, Phase.starting _ a rfl d e f ?_ ?_⟩
          all_goals simp only [Sup.emit, tally_snoc, tstep, told_snoc, begun_snoc]
          · exact hk.cnt
          · exact hk.tld
          · exact g
          · exact i
    · exact noop
  | exit =>
    show K (if s.child then s.failed else s) ∧ Phase (if s.child then s.failed else s)
    split
    · exact hk.failed
    · exact noop
  | hup =>
    show K s.hup ∧ Phase s.hup
    unfold Sup.hup
    split
    · exact noop
    · split
      · exact hk.failed.1.failed
      · exact hk.failed
  | devHup =>
    show K s.devHup ∧ Phase s.devHup
    unfold Sup.devHup
    split
    · exact hk.failed
    · exact noop
  | devReply a good =>
    show K (s.devReply a good) ∧ Phase (s.devReply a good)
    unfold Sup.devReply
    split
    · rename_i hd
      cases hp with
      | devAttach x c d e f g i =>
        split
        · exact begin_case (s := { s with dev := .own false }) (hk.same rfl rfl rfl) x c d (Or.inr rfl) f i _
        · exact K.failed (s := { s with dev := .own false }) (hk.same rfl rfl rfl)
      | off a b c d e => rw [e] at hd; cases hd
      | down t a b c d e => rw [e] at hd; cases hd
      | starting t a c d e => rw [e] at hd; cases hd
      | attaching a c d e => rw [e] at hd; cases hd
      | setup q a c d e f => rcases f with f | f <;> (rw [f] at hd; cases hd)
    · exact noop
  | reply a d good =>
    show K (s.reply a d good) ∧ Phase (s.reply a d good)
    unfold Sup.reply
    split
    · rename_i r t hg
      cases hp with
      | off _ _ _ e => rw [e] at hg; cases hg
      | down _ _ _ _ e => rw [e] at hg; cases hg
      | starting _ _ _ e => rw [e] at hg; cases hg
      | devAttach _ _ e => rw [e] at hg; cases hg
      | attaching x c e f g i j =>
        rw [e] at hg; cases hg
        simp only []
        have k1 : K ({ s with glob := some [] } : Sup) := hk.same rfl rfl rfl
        unfold Sup.onAttach
        split
        · exact k1.failed
        · cases d with
          | broken => exact k1.failed
          | used => exact ⟨hk.same rfl rfl rfl, Phase.devAttach x c rfl rfl g i j⟩
          | absent =>
            simp only []
            have k2 : K ({ ({ s with glob := some [] } : Sup) with dev := .shared } : Sup) := hk.same rfl rfl rfl
            split
            · exact k2.failed
            · exact begin_case k2 x c rfl (Or.inl rfl) g j _
      | setup q x c e f g i j m =>
        rw [e] at hg; cases hg
        have hs : Setup s (r :: t) 0 := ⟨hk, x, c, e, f, g, i, j⟩
        have hu := hs.uncount
        have hne : s.running = false := by
          cases hr : s.running with
          | false => rfl
          | true =>
            have h0 := m.mp hr
            have h1 := hk.cnt
            simp only [List.length_cons] at j
            omega
        have hur : (({ s with glob := some t } : Sup).uncount r).running = false := hne
        have hno : (({ s with glob := some t } : Sup).uncount r).running = true → (({ s with glob := some t } : Sup).uncount r).cnt = 0 := by
          intro e; rw [hur] at e; cases e
        cases r with
        | attach => exact absurd List.mem_cons_self f
        | status => exact onStatus_case hu hur a good
        | freq => exact hu.tryReady hno
        | peers =>
          simp only []
          unfold Sup.onPeers
          split
          · exact hu.tryReady hno
          · refine (hu.queueCount (by decide)).tryReady ?_
            intro e; exact absurd (hur.symm.trans e) (by decide)
        | wfd =>
          simp only []
          unfold Sup.onWfd
          have h2 := hu.flags (({ s with glob := some t } : Sup).uncount .wfd).hasP2p ((({ s with glob := some t } : Sup).uncount .wfd).hasWfd && a.ok)
          dsimp only
          split
          · exact h2.k.failed
          · refine h2.tryReady ?_
            intro e; exact absurd (hur.symm.trans e) (by decide)
    · exact noop

end Verif.Super
