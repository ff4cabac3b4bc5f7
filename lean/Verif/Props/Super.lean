import Verif.Proof.SuperReach
/-!
# Supervision of wpa_supplicant: C48, C52, C79

The history (`log`) of a supervised process is read with the functions of `Spec/Super`.
-/
namespace Verif.Super
open Verif.C Verif.Ratelimit Spec

/-- Says nothing but OK. -/
def okAns : Ans := ⟨true, false, false, false, false⟩
/-- Says FAIL. -/
def failAns : Ans := ⟨false, true, false, false, true⟩
/-- A status with P2P and wifi-display. -/
def capable : Ans := ⟨false, false, true, true, true⟩
/-- A start that gets as far as the request for the status. -/
def upTo : List Op := [.start true .ok, .wait 200000, .fire .ok true, .reply okAns .absent 9]
/-- A start that becomes ready, with all capabilities. -/
def full : List Op := upTo ++ [.reply capable .absent 9, .reply okAns .absent 9, .reply failAns .absent 9, .reply okAns .absent 9]

/-! ### C48 -/

/-- **C48**: the supplicant runs exactly if its setup has begun on the present connection, every setup request made on it has
been answered, and none was ever left unanswered on an earlier connection. -/
theorem ready_iff (t : Nat) (ops : List Op) :
    let s := (new t).run ops
    s.running = true ↔ begun s.log = true ∧ waiting s.log = 0 ∧ lost s.log = 0 := by
  intro s
  obtain ⟨k, p⟩ : K s ∧ Phase s := reach t ops
  have hc := k.cnt
  unfold waiting lost
  cases p with
  | setup q a b c d e f g i =>
    rw [i, hc, f]
    constructor
    · intro h; exact ⟨rfl, by omega, by omega⟩
    · rintro ⟨_, h1, h2⟩; omega
  | off a b c d e f g i => rw [f, g]; simp
  | down t a b c d e f g i => rw [f, g]; simp
  | starting t a c d e f g i => rw [f, g]; simp
  | attaching a c d e f g i => rw [f, g]; simp
  | devAttach a c d e f g i => rw [f, g]; simp

/-- **C48**: start and stop are announced alternately, and the last announcement is true. -/
theorem announcements (t : Nat) (ops : List Op) : told ((new t).run ops).log = some ((new t).run ops).running := (reach t ops).1.tld

/-- **C48**: a supplicant that is on duty either waits for its timer or has a connection, never both; it has no timer and no
connection when it is off, and then it does not run. So it is never stuck without something that will continue it. -/
theorem never_stuck (t : Nat) (ops : List Op) :
    let s := (new t).run ops
    (s.proc ≠ .off → (s.timer.isSome = true ↔ s.glob = none)) ∧ (s.proc = .off → s.timer = none ∧ s.glob = none ∧ s.running = false) := by
  intro s
  obtain ⟨k, p⟩ : K s ∧ Phase s := reach t ops
  cases p with
  | setup q a b c d e f g i => rw [a, b, c]; simp
  | off a b c d e f g i => rw [a, c, d, f]; simp
  | down t a b c d e f g i => rw [a, c, d]; simp
  | starting t a c d e f g i => rw [a, c, d]; simp
  | attaching a c d e f g i => rw [a, c, d]; simp
  | devAttach a c d e f g i => rw [a, c, d]; simp

/-- **C48**, what remains of the second half: as long as no setup request was lost with its connection, the supplicant can
become ready, from every state. -/
theorem recovers_partial (t : Nat) (ops : List Op) (h : lost ((new t).run ops).log = 0) : ∃ more, ((new t).run (ops ++ more)).running = true := by
  obtain ⟨k, p⟩ := reach t ops
  obtain ⟨more, hm⟩ := can_ready k p h
  exact ⟨more, by rw [run_app]; exact hm⟩

/-- **C48** refuted, its second half: once a setup request was lost with its connection, the supplicant never becomes ready
again, whatever happens; stopping and starting it does not help. -/
theorem never_ready_again (t : Nat) (ops more : List Op) (h : lost ((new t).run ops).log ≠ 0) : ((new t).run (ops ++ more)).running = false := by
  have h1 := ready_iff t (ops ++ more)
  have h2 : lost ((new t).run ops).log ≤ lost ((new t).run (ops ++ more)).log := by
    rw [run_app]; exact lost_grow (grow_run more _)
  cases hr : ((new t).run (ops ++ more)).running with
  | false => rfl
  | true =>
    have := (h1.mp hr).2.2
    omega

/-- Requests are lost by every stop, exit and hang-up while they wait. -/
theorem stop_loses (t : Nat) (ops : List Op) :
    let s := (new t).run ops
    lost (s.step .stop).log = lost s.log + waiting s.log ∧ (s.child = true → lost (s.step .exit).log = lost s.log + waiting s.log) := by
  intro s
  obtain ⟨k, p⟩ : K s ∧ Phase s := reach t ops
  constructor
  · obtain ⟨k2, p2⟩ := k.stop
    have h1 := k2.cnt
    have h2 : s.stop.cnt = s.cnt := by obtain ⟨a, b, e, _⟩ := stop_eq s; rw [e]
    have h3 : (tally s.stop.log).1 = 0 := by
      obtain ⟨a, b, e, ha, hb⟩ := stop_eq s
      rw [e]; subst ha; subst hb
      cases s.proc <;> cases s.running <;> simp [← List.append_assoc, tally_snoc, tstep]
    have h4 := k.cnt
    show (tally s.stop.log).2 = (tally s.log).2 + (tally s.log).1
    omega
  · intro hc
    have e0 : s.step .exit = s.failed := by show (if s.child then s.failed else s) = _; rw [hc]; rfl
    rw [e0]
    obtain ⟨k2, p2⟩ := k.failed
    have h1 := k2.cnt
    have h2 : s.failed.cnt = s.cnt := by obtain ⟨rl, d, a, b, e, _⟩ := failed_eq s; rw [e]
    have h3 : (tally s.failed.log).1 = 0 := by
      obtain ⟨rl, d, a, b, e, _, ha, hb⟩ := failed_eq s
      rw [e]; subst ha; subst hb
      cases s.proc <;> cases s.running <;> simp [← List.append_assoc, tally_snoc, tstep]
    have h4 := k.cnt
    show (tally s.failed.log).2 = (tally s.log).2 + (tally s.log).1
    omega

/-- A run that becomes ready. -/
example : ((new 1).run full).running = true ∧ ((new 1).run full).hasWfd = true ∧ waiting ((new 1).run full).log = 0 := by decide +kernel
/-- In the middle of the setup it does not run. -/
example : ((new 1).run (full.take 6)).running = false ∧ waiting ((new 1).run (full.take 6)).log = 2 := by decide +kernel
/-- The process exits during the setup; the next one answers everything and is never announced. -/
theorem exit_in_setup : lost ((new 1).run (upTo ++ [.exit])).log = 1 ∧
    ((new 1).run (upTo ++ [.exit, .wait 200000, .fire .ok true, .wait 200000, .fire .ok true, .reply okAns .absent 9] ++ full.drop 4)).glob = some [] ∧
    ((new 1).run (upTo ++ [.exit, .wait 200000, .fire .ok true, .wait 200000, .fire .ok true, .reply okAns .absent 9] ++ full.drop 4)).running = false := by
  decide +kernel
/-- The same if the user stops it during the setup and starts it again. -/
theorem stop_in_setup : ((new 1).run (upTo ++ [.stop] ++ full)).glob = some [] ∧ ((new 1).run (upTo ++ [.stop] ++ full)).running = false := by decide +kernel
/-- **C48** refuted, "successfully": it is announced although every request was answered with FAIL. -/
theorem ready_despite_failure : ((new 1).run (upTo ++ [.reply failAns .absent 9])).running = true := by decide +kernel
/-- A crash of a running supplicant loses nothing. -/
example : lost ((new 1).run (full ++ [.exit])).log = 0 ∧ told ((new 1).run (full ++ [.exit])).log = some false := by decide +kernel

/-! ### C52 -/

theorem sane {n I : Nat} {l : List (Nat × Nat)} (h : ∀ p ∈ l, 0 < p.1 ∧ p.1 ≤ n) (hn : n + I < W64) : Sane I (l.map Prod.fst) := by
  intro t ht
  obtain ⟨p, hp, rfl⟩ := List.mem_map.mp ht
  have := h p hp
  exact ⟨this.1, by omega⟩

/-- **C52**: the delays after failures are those of the policy: since the user's start, the first two failures of every window
of ten seconds are followed by 200 ms, all others by 30 s. -/
theorem restart_policy (t : Nat) (ops : List Op) (ht : 0 < t) (hn : ((new t).run ops).now + 10000000 < W64) :
    let fs := fails (recent ((new t).run ops).log)
    fs.map Prod.snd = (Ratelimit.Spec.answers 10000000 2 (fs.map Prod.fst)).map (fun b => if b then 200000 else 30000000) := by
  intro fs
  have j := ((Inv.new ht).run ops).j
  have h1 := ratelimit_is_fixed_window 10000000 2 (fs.map Prod.fst) (by omega) (by omega) (by decide) (sane j.ft hn)
  rw [← h1, List.map_map]
  have h2 : fs.map Prod.snd = ((Ratelimit.run (init 10000000 2) (fs.map Prod.fst)).map (fun p => (p.1, if p.2 then 200000 else 30000000))).map Prod.snd :=
    congrArg (List.map Prod.snd) j.rd
  rw [h2, List.map_map]
  rfl

/-- **C52**: the delays after a process could not be started: the first three such failures of every window of ten seconds are
followed by one second, all others by a minute. -/
theorem exec_policy (t : Nat) (ops : List Op) (ht : 0 < t) (hn : ((new t).run ops).now + 10000000 < W64) :
    let fs := misses (recent ((new t).run ops).log)
    fs.map Prod.snd = (Ratelimit.Spec.answers 10000000 3 (fs.map Prod.fst)).map (fun b => if b then 1000000 else 60000000) := by
  intro fs
  have j := ((Inv.new ht).run ops).j
  have h1 := ratelimit_is_fixed_window 10000000 3 (fs.map Prod.fst) (by omega) (by omega) (by decide) (sane j.mt hn)
  rw [← h1, List.map_map]
  have h2 : fs.map Prod.snd = ((Ratelimit.run (init 10000000 3) (fs.map Prod.fst)).map (fun p => (p.1, if p.2 then 1000000 else 60000000))).map Prod.snd :=
    congrArg (List.map Prod.snd) j.ed
  rw [h2, List.map_map]
  rfl

/-- **C52**: the delays are kept: no process is started before the delay chosen last is over. -/
theorem delays_kept (t : Nat) (ops : List Op) : (due ((new t).run ops).log).isSome = true := by
  obtain ⟨u, h, _⟩ := (reach_D t ops).ok
  rw [h]; rfl

/-- **C52**: there is never more than one process that was not told to terminate, none is told twice, and there is none when the
supplicant is off. -/
theorem one_process (t : Nat) (ops : List Op) : alive ((new t).run ops).log = some (decide (((new t).run ops).proc = .up)) := (reach_D t ops).al

/-- **C52**: since the user's start, no more than five processes are started in any period of ten seconds, whatever happens. -/
theorem spawns_bounded (t T : Nat) (ops : List Op) (ht : 0 < t) (hn : ((new t).run ops).now + 10000000 < W64) :
    within (spawns (recent ((new t).run ops).log)) T (T + 10000000) ≤ 5 := by
  have j := ((Inv.new ht).run ops).j
  have h1 := j.sp T
  have h2 := ratelimit_at_most 10000000 2 T ((F ((new t).run ops).log).map Prod.fst) (by omega) (by decide) (by omega) (by decide) (sane j.ft hn) j.fm
  have h3 : A T (F ((new t).run ops).log) = admitted (Ratelimit.run (init 10000000 2) ((F ((new t).run ops).log).map Prod.fst)) T (T + 10000000) := by
    have h4 : ∀ l : List (Nat × Bool), A T (l.map (fun p => (p.1, if p.2 then 200000 else 30000000))) = admitted l T (T + 10000000) := by
      intro l
      unfold A admitted
      rw [List.countP_map, ← List.countP_eq_length_filter]
      congr 1
      funext p
      rcases p with ⟨x, b⟩
      cases b <;> simp
    rw [← h4, ← j.rd]
  have : within (P ((new t).run ops).log) T (T + 10000000) ≤ 5 := by omega
  exact this

/-- **C52**: the delays between attempts to connect to a process grow by 200 ms each, up to 200 s. -/
theorem connect_delays (t : Nat) (ops : List Op) (ht : 0 < t) :
    let ds := opens ((new t).run ops).log
    ds = (List.range ds.length).map (fun i => min (i + 1) 1000 * 200000) := ((Inv.new ht).run ops).j.od

/-- A process that dies as soon as it is started. -/
def crashes (n : Nat) : List Op := .start true .ok :: (List.replicate n [.exit, .wait 200000, .fire .ok true]).flatten

/-- It dies twice and is restarted at once; then the limiter holds. -/
example : fails (recent ((new 1).run (crashes 4)).log) = [(1, 200000), (200001, 200000), (400001, 30000000)] ∧
    spawns (recent ((new 1).run (crashes 4)).log) = [1, 200001, 400001] := by decide +kernel
/-- After the long delay the process is started again. -/
example : spawns (recent ((new 1).run (crashes 4 ++ [.wait 30000000, .fire .ok true])).log) = [1, 200001, 400001, 30800001] := by decide +kernel
/-- No process can be started. -/
example : misses (recent ((new 1).run ([.start true .ok, .exit, .wait 200000] ++ (List.replicate 4 [.fire .refused true, .wait 1000000]).flatten)).log) =
    [(200001, 1000000), (1200001, 1000000), (2200001, 1000000), (3200001, 60000000)] := by decide +kernel
/-- Connecting fails. -/
example : opens ((new 1).run [.start true .ok, .wait 200000, .fire .ok false, .wait 200000, .fire .ok false, .wait 400000, .fire .ok false]).log =
    [200000, 400000, 600000] := by decide +kernel

/-- **C52**, finding: a hang-up of the global connection counts as two failures if it also serves the device (`supplicant_dev_fn`
is called although it was removed), so that the second such crash already waits 30 s. -/
theorem hangup_counts_twice : fails (recent ((new 1).run (full ++ [.hup])).log) = [(200001, 200000), (200001, 200000)] ∧
    fails (recent ((new 1).run (full ++ [.exit])).log) = [(200001, 200000)] := by decide +kernel

/-! ### C79 -/

/-- **C79**, what remains: wifi-display is only claimed together with P2P, and P2P only after some process said that it has it. -/
theorem capabilities_partial (t : Nat) (ops : List Op) :
    let s := (new t).run ops
    (s.hasWfd = true → s.hasP2p = true) ∧ (s.hasP2p = true → ∃ a d g, Op.reply a d g ∈ ops ∧ a.p2p = true) := by
  intro s
  obtain ⟨h1, h2⟩ := run_cap ops (new t) (fun h => by cases h)
  refine ⟨h1, fun h => ?_⟩
  rcases h2 h with h3 | h3
  · cases h3
  · exact h3

/-- **C79** refuted: a process that says nothing of P2P is taken to be capable of it because an earlier one was. -/
theorem stale_capabilities :
    ((new 1).run upTo).hasP2p = false ∧
    ((new 1).run (upTo ++ [.reply okAns .absent 9])).running = true ∧ ((new 1).run (upTo ++ [.reply okAns .absent 9])).hasP2p = false ∧
    ((new 1).run (full ++ [.stop] ++ upTo ++ [.reply okAns .absent 9])).running = true ∧
    ((new 1).run (full ++ [.stop] ++ upTo ++ [.reply okAns .absent 9])).hasP2p = true ∧
    ((new 1).run (full ++ [.stop] ++ upTo ++ [.reply okAns .absent 9])).hasWfd = true := by decide +kernel

end Verif.Super
