import Verif.Proof.SuperTime
/-! Helper lemmas for `Props/Super`: the history grows; the way to readiness. -/
namespace Verif.Super
open Verif.C Verif.Ratelimit Spec

theorem run_kp (ops : List Op) : ∀ {s : Sup}, K s → Phase s → K (s.run ops) ∧ Phase (s.run ops) := by
  induction ops with
  | nil => intro s a b; exact ⟨a, b⟩
  | cons o t ih =>
    intro s a b
    obtain ⟨c, d⟩ := step_inv a b o
    exact ih c d

theorem new_kp (t : Nat) : K (new t) ∧ Phase (new t) := ⟨⟨rfl, rfl⟩, .off rfl rfl rfl rfl rfl rfl rfl rfl⟩

theorem reach (t : Nat) (ops : List Op) : K ((new t).run ops) ∧ Phase ((new t).run ops) := run_kp ops (new_kp t).1 (new_kp t).2

theorem run_app (s : Sup) (a b : List Op) : s.run (a ++ b) = (s.run a).run b := List.foldl_append ..

/-! ### The history grows -/

def Grow (s s' : Sup) : Prop := s.log <+: s'.log

theorem Grow.rfl' {s s' : Sup} (h : s'.log = s.log) : Grow s s' := by unfold Grow; rw [h]; exact List.prefix_rfl
theorem Grow.trans {a b c : Sup} (h : Grow a b) (h' : Grow b c) : Grow a c := List.IsPrefix.trans h h'
theorem Grow.one {s s' : Sup} {o : Out} (h : s'.log = s.log ++ [o]) : Grow s s' := ⟨[o], h.symm⟩
theorem grow_failed (s : Sup) : Grow s s.failed := by
  obtain ⟨rl, d, a, b, e, _⟩ := failed_eq s
  rw [e]; exact ⟨[.failed s.now d] ++ a ++ [.closed] ++ b, by simp⟩
theorem grow_stop (s : Sup) : Grow s s.stop := by
  obtain ⟨a, b, e, _⟩ := stop_eq s
  rw [e]; exact ⟨[.closed] ++ a ++ b, by simp⟩
theorem grow_ready (s : Sup) : Grow s s.tryReady := by
  unfold Sup.tryReady
  split
  · exact .rfl' rfl
  · split
    · exact .rfl' rfl
    · exact .one rfl
theorem grow_count (s : Sup) (r : Req) : Grow s (s.count r) := .one rfl
theorem grow_uncount (s : Sup) (r : Req) : Grow s (s.uncount r) := .one rfl
theorem grow_begin (s : Sup) (ok : Bool) : Grow s (s.begin ok) := by
  unfold Sup.begin
  refine (grow_count s .status).trans ?_
  cases ok with
  | false => exact grow_failed _
  | true => exact (Grow.rfl' (s' := (s.count .status).queue .status) rfl).trans (grow_ready _)
theorem grow_statusP2p (s : Sup) (good : Nat) : Grow s (s.statusP2p good).1 := by
  unfold Sup.statusP2p
  dsimp only
  split
  · exact .rfl' rfl
  · split
    · exact .one rfl
    · split
      · exact ⟨[.asked .freq, .asked .peers], by simp [Sup.count, Sup.queue, Sup.emit]⟩
      · exact ⟨[.asked .freq, .asked .peers], by simp [Sup.count, Sup.queue, Sup.emit]⟩
theorem grow_statusWfd (s : Sup) (ok : Bool) : Grow s (s.statusWfd ok).1 := by
  unfold Sup.statusWfd
  cases ok <;> exact .one rfl
theorem grow_onStatus (s : Sup) (a : Ans) (good : Nat) : Grow s (s.onStatus a good) := by
  unfold Sup.onStatus
  have h1 : Grow s (if a.p2p then s.statusP2p good else (s, true)).1 := by
    split
    · exact grow_statusP2p _ _
    · exact .rfl' rfl
  generalize (if a.p2p then s.statusP2p good else (s, true)) = r at *
  dsimp only
  refine h1.trans ?_
  split
  · exact grow_failed _
  · have h2 : Grow r.1 (if a.wfd ∧ r.1.hasP2p then r.1.statusWfd (decide (good > 3 ∨ (good > 0 ∧ a.p2p = false))) else (r.1, true)).1 := by
      split
      · exact grow_statusWfd _ _
      · exact .rfl' rfl
    generalize (if a.wfd ∧ r.1.hasP2p then r.1.statusWfd (decide (good > 3 ∨ (good > 0 ∧ a.p2p = false))) else (r.1, true)) = q at *
    refine h2.trans ?_
    split
    · exact grow_failed _
    · exact grow_ready _
theorem grow_onPeers (s : Sup) (a : Ans) (good : Nat) : Grow s (s.onPeers a good) := by
  unfold Sup.onPeers
  split
  · exact grow_ready _
  · exact Grow.trans (b := (s.queue .peers).count .peers) (.one rfl) (grow_ready _)
theorem grow_onWfd (s : Sup) (a : Ans) (good : Nat) : Grow s (s.onWfd a good) := by
  unfold Sup.onWfd
  have h0 : Grow s { s with hasWfd := s.hasWfd && a.ok } := .rfl' rfl
  generalize ({ s with hasWfd := s.hasWfd && a.ok } : Sup) = x at *
  dsimp only
  split
  · exact h0.trans (grow_failed _)
  · exact h0.trans (grow_ready _)
theorem grow_reply (s : Sup) (a : Ans) (d : DevOpen) (good : Nat) : Grow s (s.reply a d good) := by
  unfold Sup.reply
  split
  · rename_i r t _
    have h0 : Grow s { s with glob := some t } := .rfl' rfl
    cases r with
    | attach =>
      dsimp only
      unfold Sup.onAttach
      split
      · exact h0.trans (grow_failed _)
      · cases d with
        | broken => exact h0.trans (grow_failed _)
        | used => exact .rfl' rfl
        | absent =>
          have h1 : Grow s ({ ({ s with glob := some t } : Sup) with dev := .shared } : Sup) := .rfl' rfl
          dsimp only
          split
          · exact h1.trans (grow_failed _)
          · exact h1.trans (grow_begin _ _)
    | status => exact (h0.trans (grow_uncount _ _)).trans (grow_onStatus _ _ _)
    | freq => exact (h0.trans (grow_uncount _ _)).trans (grow_ready _)
    | peers => exact (h0.trans (grow_uncount _ _)).trans (grow_onPeers _ _ _)
    | wfd => exact (h0.trans (grow_uncount _ _)).trans (grow_onWfd _ _ _)
  · exact .rfl' rfl
theorem grow_spawn (s : Sup) (o : Spawn) : Grow s (s.spawn o).1 := by
  unfold Sup.spawn
  split
  · exact .rfl' rfl
  · cases o
    · exact .one rfl
    · exact .rfl' rfl
    · exact .one rfl
theorem grow_step (s : Sup) (op : Op) : Grow s (s.step op) := by
  cases op with
  | wait d => exact .rfl' rfl
  | start prep o =>
    show Grow s (s.start prep o)
    unfold Sup.start
    split
    · exact .rfl' rfl
    · refine Grow.trans (b := ({ s with restart := reset s.restart, exec := reset s.exec } : Sup).emit .userStart) (.one rfl) ?_
      dsimp only
      split
      · exact grow_stop _
      · generalize ({ s with restart := reset s.restart, exec := reset s.exec } : Sup).emit .userStart = x
        have h1 : Grow x ({ x with timer := some (x.now + 200 * 1000) } : Sup) := .rfl' rfl
        refine h1.trans ((grow_spawn _ o).trans ?_)
        split
        · exact .rfl' rfl
        · exact grow_stop _
  | stop => exact grow_stop s
  | fire o opened =>
    show Grow s (if s.timer.any (· ≤ s.now) then s.fire o opened else s)
    split
    · unfold Sup.fire
      split
      · refine (grow_spawn s o).trans ?_
        dsimp only
        split
        · exact .rfl' rfl
        · exact .one rfl
      · split
        · exact .rfl' rfl
        · split
          · exact .rfl' rfl
          · exact .one rfl
      · exact .rfl' rfl
    · exact .rfl' rfl
  | exit =>
    show Grow s (if s.child then s.failed else s)
    split
    · exact grow_failed _
    · exact .rfl' rfl
  | hup =>
    show Grow s s.hup
    unfold Sup.hup
    split
    · exact .rfl' rfl
    · split
      · exact (grow_failed _).trans (grow_failed _)
      · exact grow_failed _
  | devHup =>
    show Grow s s.devHup
    unfold Sup.devHup
    split
    · exact grow_failed _
    · exact .rfl' rfl
  | reply a d good => exact grow_reply s a d good
  | devReply a good =>
    show Grow s (s.devReply a good)
    unfold Sup.devReply
    have h0 : Grow s { s with dev := .own false } := .rfl' rfl
    split
    · split
      · exact h0.trans (grow_begin _ _)
      · exact h0.trans (grow_failed _)
    · exact .rfl' rfl
theorem grow_run (ops : List Op) : ∀ s : Sup, Grow s (s.run ops) := by
  induction ops with
  | nil => intro s; exact .rfl' rfl
  | cons o t ih => intro s; exact (grow_step s o).trans (ih (s.step o))

theorem lost_mono (l t : List Out) : lost l ≤ lost (l ++ t) := by
  induction t using snocInd with
  | nil => simp
  | snoc t o ih =>
    rw [← List.append_assoc]
    unfold lost at *
    rw [tally_snoc]
    cases o <;> simp only [tstep] <;> omega

theorem lost_grow {s s' : Sup} (h : Grow s s') : lost s.log ≤ lost s'.log := by
  obtain ⟨t, ht⟩ := h
  rw [← ht]; exact lost_mono _ _

/-! ### Patience, one process at a time -/

theorem due_snoc (l : List Out) (o : Out) : due (l ++ [o]) = match o, due l with
  | .failed t w, some _ => some (t + w)
  | .spawnFailed t w, some _ => some (t + w)
  | .userStart, some _ => some 0
  | .spawn t, some u => if u ≤ t then some u else none
  | _, d => d := by
  unfold due
  rw [List.foldl_append]
  rfl

theorem alive_snoc (l : List Out) (o : Out) : alive (l ++ [o]) = match o, alive l with
  | .spawn _, some false => some true
  | .spawn _, _ => none
  | .kill, some true => some false
  | .kill, _ => none
  | _, a => a := by
  unfold alive
  rw [List.foldl_append]
  rfl

structure D (s : Sup) : Prop where
  ok : ∃ u, due s.log = some u ∧ (s.proc = .down → s.timer = some u)
  al : alive s.log = some (decide (s.proc = .up))

/-- Neither a process nor a delay. -/
def dull : Out → Bool
  | .spawn _ | .spawnFailed _ _ | .failed _ _ | .kill | .userStart => false
  | _ => true

theorem dull_list (t : List Out) (h : t.all dull = true) (l : List Out) : due (l ++ t) = due l ∧ alive (l ++ t) = alive l := by
  induction t generalizing l with
  | nil => simp
  | cons o t ih =>
    simp only [List.all_cons, Bool.and_eq_true] at h
    have := ih h.2 (l ++ [o])
    rw [List.append_assoc] at this
    simp only [List.singleton_append] at this
    rw [this.1, this.2, due_snoc, alive_snoc]
    cases o <;> simp [dull] at h <;> cases due l <;> simp

theorem D.of {s s' : Sup} (h : D s) {t : List Out} (hl : s'.log = s.log ++ t) (ht : t.all dull = true) (hp : s'.proc = s.proc) (hq : s.proc = .down → s'.timer = s.timer) : D s' := by
  obtain ⟨a, b⟩ := dull_list t ht s.log
  rw [← hl] at a b
  obtain ⟨u, h1, h2⟩ := h.ok
  exact ⟨⟨u, by rw [a, h1], fun e => by rw [hp] at e; rw [hq e]; exact h2 e⟩, by rw [b, hp]; exact h.al⟩

theorem D.failed {s : Sup} (h : D s) : D s.failed := by
  obtain ⟨rl, d, a, b, e, _, ha, hb⟩ := failed_eq s
  obtain ⟨u, h1, h2⟩ := h.ok
  have h3 := h.al
  rw [e]
  subst ha; subst hb
  constructor
  · refine ⟨s.now + d, ?_, fun _ => rfl⟩
    cases hp : s.proc <;> cases hr : s.running <;> simp [← List.append_assoc, due_snoc, h1]
  · cases hp : s.proc <;> cases hr : s.running <;> rw [hp] at h3 <;> simp [← List.append_assoc, alive_snoc, h3]

theorem D.stop {s : Sup} (h : D s) : D s.stop := by
  obtain ⟨a, b, e, ha, hb⟩ := stop_eq s
  obtain ⟨u, h1, h2⟩ := h.ok
  have h3 := h.al
  rw [e]
  subst ha; subst hb
  constructor
  · refine ⟨u, ?_, fun e => by cases e⟩
    cases hp : s.proc <;> cases hr : s.running <;> simp [← List.append_assoc, due_snoc, h1]
  · cases hp : s.proc <;> cases hr : s.running <;> rw [hp] at h3 <;> simp [← List.append_assoc, alive_snoc, h3]

theorem D.same {s s' : Sup} (h : D s) (hl : s'.log = s.log) (hp : s'.proc = s.proc) (hq : s'.timer = s.timer) : D s' :=
  h.of (t := []) (by simp [hl]) rfl hp (fun _ => hq)
theorem D.count {s : Sup} (h : D s) (r : Req) : D (s.count r) := h.of (t := [.asked r]) rfl rfl rfl (fun _ => rfl)
theorem D.uncount {s : Sup} (h : D s) (r : Req) : D (s.uncount r) := h.of (t := [.answered r]) rfl rfl rfl (fun _ => rfl)
theorem D.queue {s : Sup} (h : D s) (r : Req) : D (s.queue r) := h.same rfl rfl rfl

theorem D.tryReady {s : Sup} (h : D s) : D s.tryReady := by
  unfold Sup.tryReady
  split
  · exact h
  · split
    · exact h
    · exact h.of (t := [.started]) rfl rfl rfl (fun _ => rfl)

theorem D.begin {s : Sup} (h : D s) (ok : Bool) : D (s.begin ok) := by
  unfold Sup.begin
  cases ok with
  | false => exact (h.count _).failed
  | true => exact ((h.count _).queue _).tryReady

theorem D.onStatus {s : Sup} (h : D s) (a : Ans) (good : Nat) : D (s.onStatus a good) := by
  unfold Sup.onStatus
  have h1 : D (if a.p2p then s.statusP2p good else (s, true)).1 := by
    split
    · have h0 : D { s with hasP2p := true } := h.same rfl rfl rfl
      unfold Sup.statusP2p
      dsimp only
      split
      · exact h0
      · split
        · exact h0.count _
        · split
          · exact ((h0.count _).queue _).count _
          · exact (((h0.count _).queue _).count _).queue _
    · exact h
  generalize (if a.p2p then s.statusP2p good else (s, true)) = r at *
  dsimp only
  split
  · exact h1.failed
  · have h2 : D (if a.wfd ∧ r.1.hasP2p then r.1.statusWfd (decide (good > 3 ∨ (good > 0 ∧ a.p2p = false))) else (r.1, true)).1 := by
      split
      · have h0 : D { r.1 with hasWfd := true } := h1.same rfl rfl rfl
        unfold Sup.statusWfd
        generalize decide (good > 3 ∨ (good > 0 ∧ a.p2p = false)) = ok
        cases ok with
        | false => exact h0.count _
        | true => exact (h0.count _).queue _
      · exact h1
    generalize (if a.wfd ∧ r.1.hasP2p then r.1.statusWfd (decide (good > 3 ∨ (good > 0 ∧ a.p2p = false))) else (r.1, true)) = q at *
    split
    · exact h2.failed
    · exact h2.tryReady

theorem D.onPeers {s : Sup} (h : D s) (a : Ans) (good : Nat) : D (s.onPeers a good) := by
  unfold Sup.onPeers
  split
  · exact h.tryReady
  · exact ((h.queue _).count _).tryReady

theorem D.onWfd {s : Sup} (h : D s) (a : Ans) (good : Nat) : D (s.onWfd a good) := by
  unfold Sup.onWfd
  have h0 : D { s with hasWfd := s.hasWfd && a.ok } := h.same rfl rfl rfl
  generalize ({ s with hasWfd := s.hasWfd && a.ok } : Sup) = x at *
  dsimp only
  split
  · exact h0.failed
  · exact h0.tryReady

theorem D.reply {s : Sup} (h : D s) (a : Ans) (d : DevOpen) (good : Nat) : D (s.reply a d good) := by
  unfold Sup.reply
  split
  · rename_i r t _
    have h0 : D { s with glob := some t } := h.same rfl rfl rfl
    cases r with
    | attach =>
      dsimp only
      unfold Sup.onAttach
      split
      · exact h0.failed
      · cases d with
        | broken => exact h0.failed
        | used => exact h.same rfl rfl rfl
        | absent =>
          have h1 : D ({ ({ s with glob := some t } : Sup) with dev := .shared } : Sup) := h.same rfl rfl rfl
          dsimp only
          split
          · exact h1.failed
          · exact h1.begin _
    | status => exact (h0.uncount _).onStatus a good
    | freq => exact (h0.uncount _).tryReady
    | peers => exact (h0.uncount _).onPeers a good
    | wfd => exact (h0.uncount _).onWfd a good
  · exact h

theorem D.spawned {s s' : Sup} (h : D s) {u : Nat} (hd : due s.log = some u) (hu : u ≤ s.now) (hp : s.proc ≠ .up) (e : s'.log = s.log ++ [.spawn s.now]) (e' : s'.proc = .up) : D s' := by
  constructor
  · refine ⟨u, ?_, fun x => by rw [e'] at x; cases x⟩
    rw [e, due_snoc, hd]; simp [hu]
  · rw [e, e', alive_snoc, h.al]
    simp [hp]

theorem D.missed {s s' : Sup} (h : D s) {d : Nat} (e : s'.log = s.log ++ [.spawnFailed s.now d]) (e' : s'.proc = s.proc) (e'' : s'.timer = some (s.now + d)) : D s' := by
  obtain ⟨u, h1, _⟩ := h.ok
  constructor
  · refine ⟨s.now + d, ?_, fun _ => e''⟩
    rw [e, due_snoc, h1]
  · rw [e, e', alive_snoc, h.al]

theorem step_D {s : Sup} (hk : Phase s) (h : D s) (op : Op) : D (s.step op) := by
  cases op with
  | wait d => exact h.same rfl rfl rfl
  | start prep o =>
    show D (s.start prep o)
    unfold Sup.start
    split
    · exact h
    · rename_i hoff
      have hoff : s.proc = .off := by simpa using hoff
      obtain ⟨u, hu, _⟩ := h.ok
      have hdue : due (s.log ++ [.userStart]) = some 0 := by rw [due_snoc, hu]
      have hal : alive (s.log ++ [.userStart]) = some (decide (s.proc = .up)) := by rw [alive_snoc, h.al]
      have h1 : ∀ tm, D ({ (({ s with restart := reset s.restart, exec := reset s.exec } : Sup).emit .userStart) with timer := tm } : Sup) :=
        fun tm => ⟨⟨0, hdue, fun e => by rw [show s.proc = .down from e] at hoff; cases hoff⟩, hal⟩
      cases prep with
      | false => exact (h1 s.timer).stop
      | true =>
        show D (let r := ({ (({ s with restart := reset s.restart, exec := reset s.exec } : Sup).emit .userStart) with timer := some (s.now + 200 * 1000) } : Sup).spawn o
          if r.2 then r.1 else r.1.stop)
        have hne : ({ (({ s with restart := reset s.restart, exec := reset s.exec } : Sup).emit .userStart) with timer := some (s.now + 200 * 1000) } : Sup).proc ≠ .up := by
          show s.proc ≠ .up; rw [hoff]; decide
        rw [spawn_eq hne]
        cases o with
        | refused => exact (h1 _).stop
        | ok => exact (h1 (some (s.now + 200 * 1000))).spawned hdue (Nat.zero_le _) hne rfl rfl
        | unwatched => exact D.stop ((h1 (some (s.now + 200 * 1000))).spawned hdue (Nat.zero_le _) hne rfl rfl)
  | stop => exact h.stop
  | fire o opened =>
    show D (if s.timer.any (· ≤ s.now) then s.fire o opened else s)
    split
    · rename_i hdue
      cases hk with
      | off a b c d e f g i => rw [c] at hdue; cases hdue
      | attaching a c d e f g i => rw [c] at hdue; cases hdue
      | devAttach a c d e f g i => rw [c] at hdue; cases hdue
      | setup q a c d e f g i j => rw [c] at hdue; cases hdue
      | down t a b c d e f g i =>
        have hle : t ≤ s.now := by rw [c] at hdue; simpa using hdue
        obtain ⟨u, hu, hu'⟩ := h.ok
        have : t = u := by have := hu' a; rw [c] at this; exact Option.some.inj this
        subst this
        have hne : s.proc ≠ .up := by rw [a]; decide
        rw [fire_down a, spawn_eq hne]
        cases o with
        | ok => exact h.spawned hu hle hne rfl rfl
        | refused => exact h.missed rfl rfl rfl
        | unwatched =>
          have h2 : D (({ s with proc := .up, openCnt := 0, child := false } : Sup).emit (.spawn s.now)) := h.spawned hu hle hne rfl rfl
          exact h2.missed rfl rfl rfl
      | starting t a c d e f g i =>
        rw [fire_up a f]
        split
        · exact h.of (t := []) (by simp) rfl rfl (fun e => by rw [a] at e; cases e)
        · exact h.of (t := [_]) rfl rfl rfl (fun e => by rw [a] at e; cases e)
    · exact h
  | exit =>
    show D (if s.child then s.failed else s)
    split
    · exact h.failed
    · exact h
  | hup =>
    show D s.hup
    unfold Sup.hup
    split
    · exact h
    · split
      · exact h.failed.failed
      · exact h.failed
  | devHup =>
    show D s.devHup
    unfold Sup.devHup
    split
    · exact h.failed
    · exact h
  | reply a d good => exact h.reply a d good
  | devReply a good =>
    show D (s.devReply a good)
    unfold Sup.devReply
    have h1 : D { s with dev := .own false } := h.same rfl rfl rfl
    split
    · split
      · exact h1.begin _
      · exact h1.failed
    · exact h

theorem run_D (ops : List Op) : ∀ {s : Sup}, K s → Phase s → D s → D (s.run ops) := by
  induction ops with
  | nil => intro s _ _ h; exact h
  | cons o t ih =>
    intro s a b h
    obtain ⟨c, d⟩ := step_inv a b o
    exact ih c d (step_D b h o)

theorem reach_D (t : Nat) (ops : List Op) : D ((new t).run ops) :=
  run_D ops (new_kp t).1 (new_kp t).2 ⟨⟨0, rfl, fun e => by cases e⟩, rfl⟩

/-! ### Capabilities -/

/-- The capabilities are those of `s`, or P2P is new because of `y`. -/
structure Cap (y : Bool) (s s' : Sup) : Prop where
  w : (s.hasWfd = true → s.hasP2p = true) → (s'.hasWfd = true → s'.hasP2p = true)
  p : s'.hasP2p = true → s.hasP2p = true ∨ y = true

theorem Cap.same {y : Bool} {s s' : Sup} (h1 : s'.hasP2p = s.hasP2p) (h2 : s'.hasWfd = true → s.hasWfd = true) : Cap y s s' :=
  ⟨fun h e => by rw [h1]; exact h (h2 e), fun e => Or.inl (by rw [← h1]; exact e)⟩

theorem Cap.trans {y : Bool} {a b c : Sup} (h : Cap y a b) (h' : Cap y b c) : Cap y a c :=
  ⟨fun e => h'.w (h.w e), fun e => (h'.p e).elim h.p Or.inr⟩

theorem cap_failed (y : Bool) (s : Sup) : Cap y s s.failed := by
  obtain ⟨rl, d, a, b, e, _⟩ := failed_eq s
  rw [e]; exact .same rfl id
theorem cap_stop (y : Bool) (s : Sup) : Cap y s s.stop := by
  obtain ⟨a, b, e, _⟩ := stop_eq s
  rw [e]; exact .same rfl id
theorem cap_ready (y : Bool) (s : Sup) : Cap y s s.tryReady := by
  unfold Sup.tryReady
  split
  · exact .same rfl id
  · split
    · exact .same rfl id
    · exact .same rfl (fun e => by simp [Sup.emit] at e; exact e.2)
theorem cap_begin (y : Bool) (s : Sup) (ok : Bool) : Cap y s (s.begin ok) := by
  unfold Sup.begin
  cases ok with
  | false => exact Cap.trans (b := s.count .status) (.same rfl id) (cap_failed _ _)
  | true => exact Cap.trans (b := (s.count .status).queue .status) (.same rfl id) (cap_ready _ _)
theorem cap_onStatus (s : Sup) (a : Ans) (good : Nat) : Cap a.p2p s (s.onStatus a good) := by
  unfold Sup.onStatus
  have h1 : Cap a.p2p s (if a.p2p then s.statusP2p good else (s, true)).1 := by
    split
    · rename_i hy
      unfold Sup.statusP2p
      dsimp only
      have h0 : ∀ s' : Sup, s'.hasP2p = true → Cap a.p2p s s' := fun s' e => ⟨fun _ _ => e, fun _ => Or.inr hy⟩
      split
      · exact h0 _ rfl
      · split
        · exact h0 _ rfl
        · split
          · exact h0 _ rfl
          · exact h0 _ rfl
    · exact .same rfl id
  generalize (if a.p2p then s.statusP2p good else (s, true)) = r at *
  dsimp only
  refine h1.trans ?_
  split
  · exact cap_failed _ _
  · have h2 : Cap a.p2p r.1 (if a.wfd ∧ r.1.hasP2p then r.1.statusWfd (decide (good > 3 ∨ (good > 0 ∧ a.p2p = false))) else (r.1, true)).1 := by
      split
      · rename_i hy
        unfold Sup.statusWfd
        generalize decide (good > 3 ∨ (good > 0 ∧ a.p2p = false)) = ok
        cases ok <;> exact ⟨fun _ _ => hy.2, fun e => Or.inl e⟩
      · exact .same rfl id
    generalize (if a.wfd ∧ r.1.hasP2p then r.1.statusWfd (decide (good > 3 ∨ (good > 0 ∧ a.p2p = false))) else (r.1, true)) = q at *
    refine h2.trans ?_
    split
    · exact cap_failed _ _
    · exact cap_ready _ _
theorem cap_onWfd (y : Bool) (s : Sup) (a : Ans) (good : Nat) : Cap y s (s.onWfd a good) := by
  unfold Sup.onWfd
  have h0 : Cap y s { s with hasWfd := s.hasWfd && a.ok } := .same rfl (fun e => by simp at e; exact e.1)
  generalize ({ s with hasWfd := s.hasWfd && a.ok } : Sup) = x at *
  dsimp only
  split
  · exact h0.trans (cap_failed _ _)
  · exact h0.trans (cap_ready _ _)
theorem cap_onPeers (y : Bool) (s : Sup) (a : Ans) (good : Nat) : Cap y s (s.onPeers a good) := by
  unfold Sup.onPeers
  split
  · exact cap_ready _ _
  · exact Cap.trans (b := (s.queue .peers).count .peers) (.same rfl id) (cap_ready _ _)
theorem cap_reply (s : Sup) (a : Ans) (d : DevOpen) (good : Nat) : Cap a.p2p s (s.reply a d good) := by
  unfold Sup.reply
  split
  · rename_i r t _
    have h0 : ∀ r, Cap a.p2p s (({ s with glob := some t } : Sup).uncount r) := fun r => .same rfl id
    cases r with
    | attach =>
      dsimp only
      unfold Sup.onAttach
      have h1 : Cap a.p2p s { s with glob := some t } := .same rfl id
      split
      · exact h1.trans (cap_failed _ _)
      · cases d with
        | broken => exact h1.trans (cap_failed _ _)
        | used => exact .same rfl id
        | absent =>
          have h1 : Cap a.p2p s ({ ({ s with glob := some t } : Sup) with dev := .shared } : Sup) := .same rfl id
          dsimp only
          split
          · exact h1.trans (cap_failed _ _)
          · exact h1.trans (cap_begin _ _ _)
    | status => exact (h0 _).trans (cap_onStatus _ _ _)
    | freq => exact (h0 _).trans (cap_ready _ _)
    | peers => exact (h0 _).trans (cap_onPeers _ _ _ _)
    | wfd => exact (h0 _).trans (cap_onWfd _ _ _ _)
  · exact .same rfl id
theorem cap_spawn (y : Bool) (s : Sup) (o : Spawn) : Cap y s (s.spawn o).1 := by
  unfold Sup.spawn
  split
  · exact .same rfl id
  · cases o <;> exact .same rfl id
/-- The event is a reply that tells of P2P. -/
def tells : Op → Bool
  | .reply a _ _ => a.p2p
  | _ => false
theorem cap_step (s : Sup) (op : Op) : Cap (tells op) s (s.step op) := by
  cases op with
  | wait d => exact .same rfl id
  | start prep o =>
    show Cap _ s (s.start prep o)
    unfold Sup.start
    split
    · exact .same rfl id
    · refine Cap.trans (b := ({ s with restart := reset s.restart, exec := reset s.exec } : Sup).emit .userStart) (.same rfl id) ?_
      dsimp only
      split
      · exact cap_stop _ _
      · generalize ({ s with restart := reset s.restart, exec := reset s.exec } : Sup).emit .userStart = x
        have h1 : Cap (tells (.start prep o)) x ({ x with timer := some (x.now + 200 * 1000) } : Sup) := .same rfl id
        refine h1.trans ((cap_spawn _ _ o).trans ?_)
        split
        · exact .same rfl id
        · exact cap_stop _ _
  | stop => exact cap_stop _ s
  | fire o opened =>
    show Cap _ s (if s.timer.any (· ≤ s.now) then s.fire o opened else s)
    split
    · unfold Sup.fire
      split
      · refine (cap_spawn _ s o).trans ?_
        dsimp only
        split
        · exact .same rfl id
        · exact .same rfl id
      · split
        · exact .same rfl id
        · split
          · exact .same rfl id
          · exact .same rfl id
      · exact .same rfl id
    · exact .same rfl id
  | exit =>
    show Cap _ s (if s.child then s.failed else s)
    split
    · exact cap_failed _ _
    · exact .same rfl id
  | hup =>
    show Cap _ s s.hup
    unfold Sup.hup
    split
    · exact .same rfl id
    · split
      · exact (cap_failed _ _).trans (cap_failed _ _)
      · exact cap_failed _ _
  | devHup =>
    show Cap _ s s.devHup
    unfold Sup.devHup
    split
    · exact cap_failed _ _
    · exact .same rfl id
  | reply a d good => exact cap_reply s a d good
  | devReply a good =>
    show Cap _ s (s.devReply a good)
    unfold Sup.devReply
    have h0 : Cap (tells (.devReply a good)) s { s with dev := .own false } := .same rfl id
    split
    · split
      · exact h0.trans (cap_begin _ _ _)
      · exact h0.trans (cap_failed _ _)
    · exact .same rfl id
theorem run_cap (ops : List Op) : ∀ s : Sup, (s.hasWfd = true → s.hasP2p = true) → let s' := s.run ops
    (s'.hasWfd = true → s'.hasP2p = true) ∧ (s'.hasP2p = true → s.hasP2p = true ∨ ∃ a d g, Op.reply a d g ∈ ops ∧ a.p2p = true) := by
  induction ops with
  | nil => intro s h; exact ⟨h, Or.inl⟩
  | cons o t ih =>
    intro s h
    have hc := cap_step s o
    obtain ⟨h1, h2⟩ := ih (s.step o) (hc.w h)
    refine ⟨h1, fun e => ?_⟩
    rcases h2 e with h3 | ⟨a, d, g, h4, h5⟩
    · rcases hc.p h3 with h6 | h6
      · exact Or.inl h6
      · right
        cases o with
        | reply a d g => exact ⟨a, d, g, List.mem_cons_self, h6⟩
        | _ => cases h6
    · exact Or.inr ⟨a, d, g, List.mem_cons_of_mem _ h4, h5⟩

/-! ### The way to readiness -/

/-- A reply that says nothing. -/
def no : Ans := ⟨false, true, false, false, false⟩
def yes : Ans := ⟨true, false, false, false, false⟩

theorem ready_tally (s : Sup) : tally s.tryReady.log = tally s.log ∧ s.tryReady.glob = s.glob := by
  unfold Sup.tryReady
  split
  · exact ⟨rfl, rfl⟩
  · split
    · exact ⟨rfl, rfl⟩
    · exact ⟨by simp only [Sup.emit, tally_snoc, tstep], rfl⟩

theorem Setup.reply_no {s : Sup} {r : Req} {q : List Req} (h : Setup s (r :: q) 0) :
    ∃ s1, s.reply no .absent 0 = s1.tryReady ∧ Setup s1 q 0 ∧ tally s1.log = ((tally s.log).1 - 1, (tally s.log).2) ∧ s1.running = s.running := by
  have hu := h.uncount
  have hr : r ≠ .attach := fun e => h.na (by rw [e]; exact List.mem_cons_self)
  have ht : ∀ r, tally (({ s with glob := some q } : Sup).uncount r).log = ((tally s.log).1 - 1, (tally s.log).2) := by
    intro r; simp only [Sup.uncount, Sup.emit, tally_snoc, tstep]
  unfold Sup.reply
  rw [h.gl]
  cases r with
  | attach => exact absurd rfl hr
  | status => exact ⟨_, rfl, hu, ht _, rfl⟩
  | freq => exact ⟨_, rfl, hu, ht _, rfl⟩
  | peers => exact ⟨_, rfl, hu, ht _, rfl⟩
  | wfd =>
    refine ⟨({ (({ s with glob := some q } : Sup).uncount .wfd) with hasWfd := s.hasWfd && false } : Sup), ?_, ?_, ht _, rfl⟩
    · dsimp only
      unfold Sup.onWfd
      dsimp only
      rw [if_neg (by simp [no])]
      rfl
    · exact hu.flags _ _

theorem setup_ready (q : List Req) : ∀ {s : Sup}, Setup s q 0 → lost s.log = 0 → (s.running = true ↔ s.cnt = 0) → ∃ ops, (s.run ops).running = true := by
  induction q with
  | nil =>
    intro s h hl hr
    refine ⟨[], hr.mpr ?_⟩
    have h1 := h.k.cnt
    have h2 := h.w
    have h3 : (tally s.log).2 = 0 := hl
    simp only [List.length_nil] at h2
    omega
  | cons r q ih =>
    intro s h hl hr
    obtain ⟨s1, e, h1, h2, h3⟩ := h.reply_no
    have hnr : s.running = false := by
      cases hx : s.running with
      | false => rfl
      | true =>
        have := hr.mp hx
        have a := h.k.cnt
        have b := h.w
        simp only [List.length_cons] at b
        omega
    have hs : ∃ q', Setup s1.tryReady q' 0 ∧ q' = q ∧ (s1.tryReady.running = true ↔ s1.tryReady.cnt = 0) := by
      obtain ⟨k, p⟩ := h1.tryReady (by intro e; rw [h3, hnr] at e; cases e)
      have hg : s1.tryReady.glob = some q := (ready_tally s1).2.trans h1.gl
      cases p with
      | off _ _ _ e => rw [e] at hg; cases hg
      | down _ _ _ _ e => rw [e] at hg; cases hg
      | starting _ _ _ e => rw [e] at hg; cases hg
      | attaching _ _ e =>
        rw [e] at hg
        refine absurd ?_ h1.na
        rw [← Option.some.inj hg]; exact List.mem_cons_self
      | devAttach _ _ e hd =>
        have : s1.tryReady.dev = s1.dev := by
          unfold Sup.tryReady
          split
          · rfl
          · split <;> rfl
        rw [this] at hd
        rcases h1.dev with x | x <;> (rw [x] at hd; cases hd)
      | setup q' a b c d e f g i =>
        rw [c] at hg
        exact ⟨q', ⟨k, a, b, c, d, e, f, g⟩, Option.some.inj hg, i⟩
    obtain ⟨q', h4, rfl, h5⟩ := hs
    have hl1 : lost s1.tryReady.log = 0 := by
      have : lost s1.tryReady.log = (tally s1.log).2 := congrArg Prod.snd (ready_tally s1).1
      rw [this, h2]; exact hl
    obtain ⟨ops, ho⟩ := ih h4 hl1 h5
    refine ⟨.reply no .absent 0 :: ops, ?_⟩
    show ((s.step (.reply no .absent 0)).run ops).running = true
    have : s.step (.reply no .absent 0) = s1.tryReady := e
    rw [this]; exact ho

theorem begin_ready {s : Sup} (hk : K s) (up : s.proc = .up) (tm : s.timer = none) (gl : s.glob = some []) (dev : s.dev = .shared ∨ s.dev = .own false)
    (hr : s.running = false) (hw : (tally s.log).1 = 0) (hl : lost s.log = 0) : ∃ ops, ((s.begin true).run ops).running = true := by
  obtain ⟨k, p⟩ := begin_case hk up tm gl dev hr hw true
  have hb : s.begin true = (s.count .status).queue .status := by
    unfold Sup.begin Sup.tryReady
    dsimp only
    rw [if_pos rfl, if_neg (by show ¬ s.running = true; rw [hr]; simp), if_pos (by show s.cnt + 1 > 0; omega)]
  have hg : (s.begin true).glob = some [.status] := by
    rw [hb]; simp [Sup.queue, Sup.count, Sup.emit, gl]
  have hl' : lost (s.begin true).log = 0 := by
    rw [hb]
    show (tally (s.log ++ [.asked .status])).2 = 0
    rw [tally_snoc]; exact hl
  cases p with
  | off _ _ _ e => rw [e] at hg; cases hg
  | down _ _ _ _ e => rw [e] at hg; cases hg
  | starting _ _ _ e => rw [e] at hg; cases hg
  | attaching _ _ e => rw [e] at hg; cases hg
  | devAttach _ _ e => rw [e] at hg; cases hg
  | setup q' a b c d e f g i => exact setup_ready q' ⟨k, a, b, c, d, e, f, g⟩ hl' i

theorem attach_ready {s : Sup} (hk : K s) (up : s.proc = .up) (tm : s.timer = none) (gl : s.glob = some [.attach])
    (hr : s.running = false) (hw : (tally s.log).1 = 0) (hl : lost s.log = 0) : ∃ ops, (s.run ops).running = true := by
  have h1 : s.step (.reply yes .absent 2) = ({ ({ s with glob := some [] } : Sup) with dev := .shared } : Sup).begin true := by
    show s.reply yes .absent 2 = _
    unfold Sup.reply
    rw [gl]
    rfl
  obtain ⟨ops, h⟩ := begin_ready (s := ({ ({ s with glob := some [] } : Sup) with dev := .shared } : Sup)) (hk.same rfl rfl rfl) up tm rfl (Or.inl rfl) hr hw hl
  exact ⟨.reply yes .absent 2 :: ops, by show ((s.step _).run ops).running = true; rw [h1]; exact h⟩

theorem starting_ready {s : Sup} {t : Nat} (hk : K s) (up : s.proc = .up) (tm : s.timer = some t)
    (hr : s.running = false) (hw : (tally s.log).1 = 0) (hl : lost s.log = 0) : ∃ ops, (s.run ops).running = true := by
  have h1 : (s.run [.wait t, .fire .ok true]) = { s with now := s.now + t, glob := some [.attach], timer := none } := by
    show (if s.timer.any (· ≤ s.now + t) then ({ s with now := s.now + t } : Sup).fire .ok true else _) = _
    rw [if_pos (by rw [tm]; simp), fire_up (s := { s with now := s.now + t }) up hr, if_pos rfl]
  obtain ⟨ops, h⟩ := attach_ready (s := { s with now := s.now + t, glob := some [.attach], timer := none }) (hk.same rfl rfl rfl) up rfl rfl hr hw hl
  exact ⟨[.wait t, .fire .ok true] ++ ops, by rw [run_app, h1]; exact h⟩

theorem can_ready {s : Sup} (hk : K s) (hp : Phase s) (hl : lost s.log = 0) : ∃ ops, (s.run ops).running = true := by
  cases hp with
  | setup q' a b c d e f g i => exact setup_ready q' ⟨hk, a, b, c, d, e, f, g⟩ hl i
  | attaching a c d e f g i => exact attach_ready hk a c d f i hl
  | starting t a c d e f g i => exact starting_ready hk a c f i hl
  | devAttach a c d e f g i =>
    have h1 : s.step (.devReply yes 1) = ({ s with dev := .own false } : Sup).begin true := by
      show s.devReply yes 1 = _
      unfold Sup.devReply
      rw [e]
      rfl
    obtain ⟨ops, h⟩ := begin_ready (s := ({ s with dev := .own false } : Sup)) (hk.same rfl rfl rfl) a c d (Or.inr rfl) f i hl
    exact ⟨.devReply yes 1 :: ops, by show ((s.step _).run ops).running = true; rw [h1]; exact h⟩
  | down t a b c d e f g i =>
    have h1 : (s.run [.wait t, .fire .ok true]) = ({ s with now := s.now + t, proc := .up, openCnt := 0, child := true, timer := some (s.now + t + 200 * 1000), log := s.log ++ [.spawn (s.now + t)] } : Sup) := by
      show (if s.timer.any (· ≤ s.now + t) then ({ s with now := s.now + t } : Sup).fire .ok true else _) = _
      rw [if_pos (by rw [c]; simp), fire_down (s := { s with now := s.now + t }) a, spawn_eq (s := { s with now := s.now + t }) (by show s.proc ≠ .up; rw [a]; decide), if_pos rfl]
      rfl
    obtain ⟨k, _⟩ := run_kp [.wait t, .fire .ok true] hk (.down t a b c d e f g i)
    rw [h1] at k
    obtain ⟨ops, h⟩ := starting_ready k rfl rfl f (by show (tally (s.log ++ _)).1 = 0; rw [tally_snoc]; exact i) (by show (tally (s.log ++ _)).2 = 0; rw [tally_snoc]; exact hl)
    exact ⟨[.wait t, .fire .ok true] ++ ops, by rw [run_app, h1]; exact h⟩
  | off a b c d e f g i =>
    obtain ⟨k, _⟩ := step_inv hk (.off a b c d e f g i) (.start true .ok)
    have h1 : s.step (.start true .ok) = ({ s with restart := reset s.restart, exec := reset s.exec, proc := .up, openCnt := 0, child := true, timer := some (s.now + 200 * 1000), log := s.log ++ [.userStart] ++ [.spawn s.now] } : Sup) := by
      show s.start true .ok = _
      unfold Sup.start
      rw [if_neg (by rw [a]; simp)]
      show (let r := ({ (({ s with restart := reset s.restart, exec := reset s.exec } : Sup).emit .userStart) with timer := some (s.now + 200 * 1000) } : Sup).spawn .ok
          if r.2 then r.1 else r.1.stop) = _
      rw [spawn_eq (by show s.proc ≠ .up; rw [a]; decide)]
      rfl
    rw [h1] at k
    obtain ⟨ops, h⟩ := starting_ready k rfl rfl f (by show (tally (s.log ++ _ ++ _)).1 = 0; rw [tally_snoc, tally_snoc]; exact i) (by show (tally (s.log ++ _ ++ _)).2 = 0; rw [tally_snoc, tally_snoc]; exact hl)
    exact ⟨.start true .ok :: ops, by show ((s.step _).run ops).running = true; rw [h1]; exact h⟩

end Verif.Super
