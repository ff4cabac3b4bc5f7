import Verif.Proof.Super
/-! Helper lemmas for `Props/Super`: times and delays. -/
namespace Verif.Super
open Verif.C Verif.Ratelimit Spec

theorem recent_snoc (l : List Out) (o : Out) : recent (l ++ [o]) = if o = .userStart then [] else recent l ++ [o] := by
  unfold recent
  rw [List.foldl_append]
  rfl

def F (l : List Out) : List (Nat × Nat) := fails (recent l)
def M (l : List Out) : List (Nat × Nat) := misses (recent l)
def P (l : List Out) : List Nat := spawns (recent l)

theorem F_snoc (l : List Out) (o : Out) : F (l ++ [o]) = match o with | .userStart => [] | .failed t d => F l ++ [(t, d)] | _ => F l := by
  unfold F
  rw [recent_snoc]
  cases o <;> simp [fails]

theorem M_snoc (l : List Out) (o : Out) : M (l ++ [o]) = match o with | .userStart => [] | .spawnFailed t d => M l ++ [(t, d)] | _ => M l := by
  unfold M
  rw [recent_snoc]
  cases o <;> simp [misses]

theorem P_snoc (l : List Out) (o : Out) : P (l ++ [o]) = match o with | .userStart => [] | .spawn t => P l ++ [t] | _ => P l := by
  unfold P
  rw [recent_snoc]
  cases o <;> simp [spawns]

theorem opens_snoc (l : List Out) (o : Out) : opens (l ++ [o]) = match o with | .spawn _ => [] | .openFailed _ d => opens l ++ [d] | _ => opens l := by
  unfold opens
  rw [List.foldl_append]
  rfl

/-- Failures that led to a short delay, in a period of ten seconds. -/
def A (T : Nat) (l : List (Nat × Nat)) : Nat := l.countP (fun p => decide (p.2 = 200000) && decide (T ≤ p.1) && decide (p.1 ≤ T + 10000000))

structure J (s : Sup) : Prop where
  pos : 0 < s.now
  rst : s.restart = after (init 10000000 2) ((F s.log).map Prod.fst)
  rd : F s.log = (run (init 10000000 2) ((F s.log).map Prod.fst)).map (fun p => (p.1, if p.2 then 200000 else 30000000))
  exr : s.exec = after (init 10000000 3) ((M s.log).map Prod.fst)
  ed : M s.log = (run (init 10000000 3) ((M s.log).map Prod.fst)).map (fun p => (p.1, if p.2 then 1000000 else 60000000))
  ft : ∀ p ∈ F s.log, 0 < p.1 ∧ p.1 ≤ s.now
  fm : ((F s.log).map Prod.fst).Pairwise (· ≤ ·)
  mt : ∀ p ∈ M s.log, 0 < p.1 ∧ p.1 ≤ s.now
  mm : ((M s.log).map Prod.fst).Pairwise (· ≤ ·)
  st : ∀ t ∈ P s.log, t ≤ s.now
  oc : s.openCnt = min (opens s.log).length 1000
  od : opens s.log = (List.range (opens s.log).length).map (fun i => min (i + 1) 1000 * 200000)
  sp : ∀ T, within (P s.log) T (T + 10000000) ≤ A T (F s.log) + 1
  dn : s.proc = .down → ∀ t, s.timer = some t → ∀ T, within (P s.log) T (T + 10000000) = 0 ∨ within (P s.log) T (T + 10000000) ≤ A T (F s.log) ∨ T + 10000000 < t

/-- Nothing about time. -/
def quiet : Out → Bool
  | .spawn _ | .spawnFailed _ _ | .failed _ _ | .openFailed _ _ | .userStart => false
  | _ => true

theorem quiet_list (t : List Out) (h : t.all quiet = true) (l : List Out) : F (l ++ t) = F l ∧ M (l ++ t) = M l ∧ P (l ++ t) = P l ∧ opens (l ++ t) = opens l := by
  induction t generalizing l with
  | nil => simp
  | cons o t ih =>
    simp only [List.all_cons, Bool.and_eq_true] at h
    have := ih h.2 (l ++ [o])
    rw [List.append_assoc] at this
    simp only [List.singleton_append] at this
    obtain ⟨a, b, c, d⟩ := this
    rw [a, b, c, d, F_snoc, M_snoc, P_snoc, opens_snoc]
    cases o <;> simp [quiet] at h <;> simp

theorem J.of {s s' : Sup} (h : J s) {t : List Out} (hl : s'.log = s.log ++ t) (ht : t.all quiet = true) (hn : s'.now = s.now) (hr : s'.restart = s.restart)
    (he : s'.exec = s.exec) (ho : s'.openCnt = s.openCnt) (hp : s'.proc = .down → s.proc = .down ∧ s'.timer = s.timer) : J s' := by
  obtain ⟨a, b, c, d⟩ := quiet_list t ht s.log
  rw [← hl] at a b c d
  constructor
  · rw [hn]; exact h.pos
  · rw [hr, a]; exact h.rst
  · rw [a]; exact h.rd
  · rw [he, b]; exact h.exr
  · rw [b]; exact h.ed
  · rw [a, hn]; exact h.ft
  · rw [a]; exact h.fm
  · rw [b, hn]; exact h.mt
  · rw [b]; exact h.mm
  · rw [c, hn]; exact h.st
  · rw [ho, d]; exact h.oc
  · rw [d]; exact h.od
  · rw [a, c]; exact h.sp
  · rw [a, c]
    intro e
    obtain ⟨e1, e2⟩ := hp e
    rw [e2]; exact h.dn e1

theorem J.wait {s : Sup} (h : J s) (d : Nat) : J { s with now := s.now + d } := by
  constructor
  · have := h.pos; show 0 < s.now + d; omega
  · exact h.rst
  · exact h.rd
  · exact h.exr
  · exact h.ed
  · intro p hp; have := h.ft p hp; exact ⟨this.1, by show p.1 ≤ s.now + d; omega⟩
  · exact h.fm
  · intro p hp; have := h.mt p hp; exact ⟨this.1, by show p.1 ≤ s.now + d; omega⟩
  · exact h.mm
  · intro t ht; have := h.st t ht; show t ≤ s.now + d; omega
  · exact h.oc
  · exact h.od
  · exact h.sp
  · exact h.dn

theorem within_append (l m : List Nat) (a b : Nat) : within (l ++ m) a b = within l a b + within m a b := by simp [within]

theorem A_append (T : Nat) (l m : List (Nat × Nat)) : A T (l ++ m) = A T l + A T m := by simp [A]

theorem pairwise_snoc {l : List Nat} {t : Nat} (h : l.Pairwise (· ≤ ·)) (hl : ∀ x ∈ l, x ≤ t) : (l ++ [t]).Pairwise (· ≤ ·) := by
  rw [List.pairwise_append]
  exact ⟨h, List.pairwise_singleton _ _, fun a ha b hb => by rw [List.mem_singleton.mp hb]; exact hl a ha⟩

/-- Asking a limiter once more. -/
theorem limit_snoc (r : RL) (l : List (Nat × Nat)) (now x y : Nat) (h : l = (run r (l.map Prod.fst)).map (fun p => (p.1, if p.2 then x else y))) :
    l ++ [(now, if (test (after r (l.map Prod.fst)) now).2 then x else y)] =
      (run r ((l ++ [(now, if (test (after r (l.map Prod.fst)) now).2 then x else y)]).map Prod.fst)).map (fun p => (p.1, if p.2 then x else y)) := by
  rw [List.map_append, run_append, List.map_append, ← h]
  simp only [List.map_cons, List.map_nil, run]

theorem within_pos {l : List Nat} {a b : Nat} (h : within l a b ≠ 0) : ∃ t ∈ l, a ≤ t ∧ t ≤ b := by
  unfold within at h
  have : 0 < l.countP (fun t => decide (a ≤ t) && decide (t ≤ b)) := by omega
  rw [List.countP_pos_iff] at this
  obtain ⟨t, ht, h2⟩ := this
  simp only [Bool.and_eq_true, decide_eq_true_eq] at h2
  exact ⟨t, ht, h2⟩

theorem J.failed {s : Sup} (h : J s) : J s.failed := by
  obtain ⟨rl, d, a, b, e, hd, ha, hb⟩ := failed_eq s
  -- first the failure itself
  have h1 : J { s with restart := rl, timer := some (s.now + d), proc := .down, log := s.log ++ [.failed s.now d] } := by
    have hr := h.rst
    simp only [Prod.mk.injEq] at hd
    obtain ⟨hd1, hd2⟩ := hd
    have hF : F (s.log ++ [.failed s.now d]) = F s.log ++ [(s.now, d)] := F_snoc _ _
    have hM : M (s.log ++ [.failed s.now d]) = M s.log := M_snoc _ _
    have hP : P (s.log ++ [.failed s.now d]) = P s.log := P_snoc _ _
    have hO : opens (s.log ++ [.failed s.now d]) = opens s.log := opens_snoc _ _
    have hd2' : d = if (test (after (init 10000000 2) ((F s.log).map Prod.fst)) s.now).2 then 200000 else 30000000 := by rw [hd2, ← hr]
    constructor
    · exact h.pos
    · show rl = _
      rw [hF, List.map_append, after_append, ← hr, hd1]; rfl
    · show F (s.log ++ _) = _
      rw [hF]
      have := limit_snoc (init 10000000 2) (F s.log) s.now 200000 30000000 h.rd
      rw [← hd2'] at this
      exact this
    · show s.exec = _
      rw [hM]; exact h.exr
    · show M (s.log ++ _) = (run _ ((M (s.log ++ _)).map _)).map _
      rw [hM]; exact h.ed
    · show ∀ p ∈ F (s.log ++ _), _
      rw [hF]
      intro p hp
      rcases List.mem_append.mp hp with hp | hp
      · exact h.ft p hp
      · rw [List.mem_singleton.mp hp]; exact ⟨h.pos, Nat.le_refl _⟩
    · show ((F (s.log ++ _)).map Prod.fst).Pairwise _
      rw [hF, List.map_append]
      refine pairwise_snoc h.fm ?_
      intro x hx
      obtain ⟨p, hp, rfl⟩ := List.mem_map.mp hx
      exact (h.ft p hp).2
    · show ∀ p ∈ M (s.log ++ _), _
      rw [hM]; exact h.mt
    · show ((M (s.log ++ _)).map Prod.fst).Pairwise _
      rw [hM]; exact h.mm
    · show ∀ t ∈ P (s.log ++ _), _
      rw [hP]; exact h.st
    · show s.openCnt = min (opens (s.log ++ _)).length 1000
      rw [hO]; exact h.oc
    · show opens (s.log ++ _) = (List.range (opens (s.log ++ _)).length).map _
      rw [hO]; exact h.od
    · show ∀ T, within (P (s.log ++ _)) T _ ≤ A T (F (s.log ++ _)) + 1
      intro T
      rw [hP, hF, A_append]
      have := h.sp T
      omega
    · show _ → ∀ t, some (s.now + d) = some t → ∀ T, within (P (s.log ++ _)) T _ = 0 ∨ within (P (s.log ++ _)) T _ ≤ A T (F (s.log ++ _)) ∨ T + 10000000 < t
      intro _ t ht T
      cases ht
      rw [hP, hF, A_append]
      by_cases h0 : within (P s.log) T (T + 10000000) = 0
      · exact Or.inl h0
      · right
        obtain ⟨x, hx, hx1, hx2⟩ := within_pos h0
        have hx3 := h.st x hx
        have := h.sp T
        by_cases hnow : T + 10000000 < s.now
        · right; omega
        · by_cases hok : (test s.restart s.now).2 = true
          · left
            have hdd : d = 200000 := by rw [hd2, if_pos hok]
            have : A T [(s.now, d)] = 1 := by
              simp [A, hdd, show T ≤ s.now by omega, show s.now ≤ T + 10000000 by omega]
            omega
          · right
            have hdd : d = 30000000 := by rw [hd2, if_neg hok]
            omega
  rw [e]
  refine h1.of (t := a ++ [.closed] ++ b) (by simp) ?_ rfl rfl rfl rfl (fun _ => ⟨rfl, rfl⟩)
  subst ha; subst hb
  cases s.proc <;> cases s.running <;> rfl

theorem J.stop {s : Sup} (h : J s) : J s.stop := by
  obtain ⟨a, b, e, ha, hb⟩ := stop_eq s
  rw [e]
  refine h.of (t := [.closed] ++ a ++ b) (by simp) ?_ rfl rfl rfl rfl (fun hc => by cases hc)
  subst ha; subst hb
  cases s.proc <;> cases s.running <;> rfl

theorem J.count {s : Sup} (h : J s) (r : Req) : J (s.count r) := h.of (t := [.asked r]) rfl rfl rfl rfl rfl rfl (fun e => ⟨e, rfl⟩)
theorem J.uncount {s : Sup} (h : J s) (r : Req) : J (s.uncount r) := h.of (t := [.answered r]) rfl rfl rfl rfl rfl rfl (fun e => ⟨e, rfl⟩)
theorem J.queue {s : Sup} (h : J s) (r : Req) : J (s.queue r) := h.of (t := []) (by simp [Sup.queue]) rfl rfl rfl rfl rfl (fun e => ⟨e, rfl⟩)
theorem J.conn {s : Sup} (h : J s) (g : Option (List Req)) (d : Dev) (x y : Bool) : J { s with glob := g, dev := d, hasP2p := x, hasWfd := y } :=
  h.of (t := []) (by simp) rfl rfl rfl rfl rfl (fun e => ⟨e, rfl⟩)

theorem J.tryReady {s : Sup} (h : J s) : J s.tryReady := by
  unfold Sup.tryReady
  split
  · exact h
  · split
    · exact h
    · exact h.of (t := [.started]) rfl rfl rfl rfl rfl rfl (fun e => ⟨e, rfl⟩)

theorem J.begin {s : Sup} (h : J s) (ok : Bool) : J (s.begin ok) := by
  unfold Sup.begin
  cases ok with
  | false => exact (h.count _).failed
  | true => exact ((h.count _).queue _).tryReady

theorem J.statusP2p {s : Sup} (h : J s) (good : Nat) : J (s.statusP2p good).1 := by
  have h0 : J { s with hasP2p := true } := h.conn s.glob s.dev true s.hasWfd
  unfold Sup.statusP2p
  dsimp only
  split
  · exact h0
  · split
    · exact h0.count _
    · split
      · exact ((h0.count _).queue _).count _
      · exact (((h0.count _).queue _).count _).queue _

theorem J.statusWfd {s : Sup} (h : J s) (ok : Bool) : J (s.statusWfd ok).1 := by
  have h0 : J { s with hasWfd := true } := h.conn s.glob s.dev s.hasP2p true
  unfold Sup.statusWfd
  cases ok with
  | false => exact h0.count _
  | true => exact (h0.count _).queue _

theorem J.onStatus {s : Sup} (h : J s) (a : Ans) (good : Nat) : J (s.onStatus a good) := by
  unfold Sup.onStatus
  have h1 : J (if a.p2p then s.statusP2p good else (s, true)).1 := by
    split
    · exact h.statusP2p good
    · exact h
  generalize (if a.p2p then s.statusP2p good else (s, true)) = r at *
  dsimp only
  split
  · exact h1.failed
  · have h2 : J (if a.wfd ∧ r.1.hasP2p then r.1.statusWfd (decide (good > 3 ∨ (good > 0 ∧ a.p2p = false))) else (r.1, true)).1 := by
      split
      · exact h1.statusWfd _
      · exact h1
    generalize (if a.wfd ∧ r.1.hasP2p then r.1.statusWfd (decide (good > 3 ∨ (good > 0 ∧ a.p2p = false))) else (r.1, true)) = q at *
    split
    · exact h2.failed
    · exact h2.tryReady

theorem J.reply {s : Sup} (h : J s) (a : Ans) (d : DevOpen) (good : Nat) : J (s.reply a d good) := by
  unfold Sup.reply
  split
  · rename_i r t _
    have h0 : J { s with glob := some t } := h.conn (some t) s.dev s.hasP2p s.hasWfd
    cases r with
    | attach =>
      dsimp only
      unfold Sup.onAttach
      split
      · exact h0.failed
      · cases d with
        | broken => exact h0.failed
        | used => exact h.conn (some t) (.own true) s.hasP2p s.hasWfd
        | absent =>
          have h1 : J ({ ({ s with glob := some t } : Sup) with dev := .shared } : Sup) := h.conn (some t) .shared s.hasP2p s.hasWfd
          dsimp only
          split
          · exact h1.failed
          · exact h1.begin _
    | status => exact (h0.uncount _).onStatus a good
    | freq => exact (h0.uncount _).tryReady
    | peers =>
      dsimp only
      unfold Sup.onPeers
      split
      · exact (h0.uncount _).tryReady
      · exact (((h0.uncount _).queue _).count _).tryReady
    | wfd =>
      dsimp only
      unfold Sup.onWfd
      dsimp only
      have h1 := (h0.uncount .wfd).conn (({ s with glob := some t } : Sup).uncount .wfd).glob (({ s with glob := some t } : Sup).uncount .wfd).dev (({ s with glob := some t } : Sup).uncount .wfd).hasP2p ((({ s with glob := some t } : Sup).uncount .wfd).hasWfd && a.ok)
      split
      · exact h1.failed
      · exact h1.tryReady
  · exact h

/-- A process is started, no earlier than it may be. -/
theorem J.spawned {s : Sup} (h : J s) (child : Bool) (tm : Option Nat)
    (hw : ∀ T, within (P s.log) T (T + 10000000) = 0 ∨ within (P s.log) T (T + 10000000) ≤ A T (F s.log) ∨ T + 10000000 < s.now) :
    J (({ s with proc := .up, openCnt := 0, child := child, timer := tm } : Sup).emit (.spawn s.now)) := by
  have hF : F (s.log ++ [.spawn s.now]) = F s.log := F_snoc _ _
  have hM : M (s.log ++ [.spawn s.now]) = M s.log := M_snoc _ _
  have hP : P (s.log ++ [.spawn s.now]) = P s.log ++ [s.now] := P_snoc _ _
  have hO : opens (s.log ++ [.spawn s.now]) = [] := opens_snoc _ _
  constructor
  · exact h.pos
  · show s.restart = after _ ((F (s.log ++ _)).map _); rw [hF]; exact h.rst
  · show F (s.log ++ _) = (run _ ((F (s.log ++ _)).map _)).map _; rw [hF]; exact h.rd
  · show s.exec = after _ ((M (s.log ++ _)).map _); rw [hM]; exact h.exr
  · show M (s.log ++ _) = (run _ ((M (s.log ++ _)).map _)).map _; rw [hM]; exact h.ed
  · show ∀ p ∈ F (s.log ++ _), _; rw [hF]; exact h.ft
  · show ((F (s.log ++ _)).map _).Pairwise _; rw [hF]; exact h.fm
  · show ∀ p ∈ M (s.log ++ _), _; rw [hM]; exact h.mt
  · show ((M (s.log ++ _)).map _).Pairwise _; rw [hM]; exact h.mm
  · show ∀ t ∈ P (s.log ++ _), _
    rw [hP]
    intro t ht
    rcases List.mem_append.mp ht with ht | ht
    · exact h.st t ht
    · rw [List.mem_singleton.mp ht]; exact Nat.le_refl _
  · show 0 = min (opens (s.log ++ _)).length 1000; rw [hO]; rfl
  · show opens (s.log ++ _) = (List.range (opens (s.log ++ _)).length).map _; rw [hO]; rfl
  · show ∀ T, within (P (s.log ++ _)) T _ ≤ A T (F (s.log ++ _)) + 1
    intro T
    rw [hP, hF, within_append]
    have h1 := h.sp T
    have h2 : within [s.now] T (T + 10000000) ≤ 1 := by unfold within; exact List.countP_le_length
    rcases hw T with h3 | h3 | h3
    · omega
    · omega
    · have : within [s.now] T (T + 10000000) = 0 := by simp [within]; omega
      omega
  · intro e; cases e

theorem J.missed {s : Sup} (h : J s) (d : Nat) (hd : d = if (test s.exec s.now).2 then 1000 * 1000 else 60 * 1000 * 1000)
    (hw : s.proc = .down → ∀ t, s.timer = some t → t ≤ s.now) (hs : s.proc = .down → ∃ t, s.timer = some t) :
    J (({ s with exec := (test s.exec s.now).1, timer := some (s.now + d) } : Sup).emit (.spawnFailed s.now d)) := by
  have hr := h.exr
  have hF : F (s.log ++ [.spawnFailed s.now d]) = F s.log := F_snoc _ _
  have hM : M (s.log ++ [.spawnFailed s.now d]) = M s.log ++ [(s.now, d)] := M_snoc _ _
  have hP : P (s.log ++ [.spawnFailed s.now d]) = P s.log := P_snoc _ _
  have hO : opens (s.log ++ [.spawnFailed s.now d]) = opens s.log := opens_snoc _ _
  have hd2 : d = if (test (after (init 10000000 3) ((M s.log).map Prod.fst)) s.now).2 then 1000000 else 60000000 := by rw [hd, ← hr]
  constructor
  · exact h.pos
  · show s.restart = after _ ((F (s.log ++ _)).map _); rw [hF]; exact h.rst
  · show F (s.log ++ _) = (run _ ((F (s.log ++ _)).map _)).map _; rw [hF]; exact h.rd
  · show (test s.exec s.now).1 = after _ ((M (s.log ++ _)).map _)
    rw [hM, List.map_append, after_append, ← hr]; rfl
  · show M (s.log ++ _) = (run _ ((M (s.log ++ _)).map _)).map _
    rw [hM]
    have := limit_snoc (init 10000000 3) (M s.log) s.now 1000000 60000000 h.ed
    rw [← hd2] at this
    exact this
  · show ∀ p ∈ F (s.log ++ _), _; rw [hF]; exact h.ft
  · show ((F (s.log ++ _)).map _).Pairwise _; rw [hF]; exact h.fm
  · show ∀ p ∈ M (s.log ++ _), _
    rw [hM]
    intro p hp
    rcases List.mem_append.mp hp with hp | hp
    · exact h.mt p hp
    · rw [List.mem_singleton.mp hp]; exact ⟨h.pos, Nat.le_refl _⟩
  · show ((M (s.log ++ _)).map Prod.fst).Pairwise _
    rw [hM, List.map_append]
    refine pairwise_snoc h.mm ?_
    intro x hx
    obtain ⟨p, hp, rfl⟩ := List.mem_map.mp hx
    exact (h.mt p hp).2
  · show ∀ t ∈ P (s.log ++ _), _; rw [hP]; exact h.st
  · show s.openCnt = min (opens (s.log ++ _)).length 1000; rw [hO]; exact h.oc
  · show opens (s.log ++ _) = (List.range (opens (s.log ++ _)).length).map _; rw [hO]; exact h.od
  · show ∀ T, within (P (s.log ++ _)) T _ ≤ A T (F (s.log ++ _)) + 1
    rw [hP, hF]; exact h.sp
  · show s.proc = .down → ∀ t, some (s.now + d) = some t → ∀ T, within (P (s.log ++ _)) T _ = 0 ∨ within (P (s.log ++ _)) T _ ≤ A T (F (s.log ++ _)) ∨ T + 10000000 < t
    intro hp t ht T
    cases ht
    rw [hP, hF]
    obtain ⟨t0, ht0⟩ := hs hp
    have h1 := hw hp t0 ht0
    rcases h.dn hp t0 ht0 T with h2 | h2 | h2
    · exact Or.inl h2
    · exact Or.inr (Or.inl h2)
    · right; right; omega

theorem J.openMissed {s : Sup} (h : J s) (hp : s.proc ≠ .down) :
    J (({ s with openCnt := min (s.openCnt + 1) 1000, timer := some (s.now + min (s.openCnt + 1) 1000 * 200 * 1000) } : Sup).emit
        (.openFailed s.now (min (s.openCnt + 1) 1000 * 200 * 1000))) := by
  generalize hd : min (s.openCnt + 1) 1000 * 200 * 1000 = d
  have hF : F (s.log ++ [.openFailed s.now d]) = F s.log := F_snoc _ _
  have hM : M (s.log ++ [.openFailed s.now d]) = M s.log := M_snoc _ _
  have hP : P (s.log ++ [.openFailed s.now d]) = P s.log := P_snoc _ _
  have hO : opens (s.log ++ [.openFailed s.now d]) = opens s.log ++ [d] := opens_snoc _ _
  have ho := h.oc
  constructor
  · exact h.pos
  · show s.restart = after _ ((F (s.log ++ _)).map _); rw [hF]; exact h.rst
  · show F (s.log ++ _) = (run _ ((F (s.log ++ _)).map _)).map _; rw [hF]; exact h.rd
  · show s.exec = after _ ((M (s.log ++ _)).map _); rw [hM]; exact h.exr
  · show M (s.log ++ _) = (run _ ((M (s.log ++ _)).map _)).map _; rw [hM]; exact h.ed
  · show ∀ p ∈ F (s.log ++ _), _; rw [hF]; exact h.ft
  · show ((F (s.log ++ _)).map _).Pairwise _; rw [hF]; exact h.fm
  · show ∀ p ∈ M (s.log ++ _), _; rw [hM]; exact h.mt
  · show ((M (s.log ++ _)).map _).Pairwise _; rw [hM]; exact h.mm
  · show ∀ t ∈ P (s.log ++ _), _; rw [hP]; exact h.st
  · show min (s.openCnt + 1) 1000 = min (opens (s.log ++ _)).length 1000
    rw [hO, List.length_append]
    simp only [List.length_singleton]
    omega
  · show opens (s.log ++ _) = _
    have hdd : d = min ((opens s.log).length + 1) 1000 * 200000 := by rw [← hd]; omega
    show opens (s.log ++ [.openFailed s.now d]) = (List.range (opens (s.log ++ [.openFailed s.now d])).length).map _
    rw [hO, List.length_append, List.length_singleton, List.range_succ, List.map_append, ← h.od, hdd]
    rfl
  · show ∀ T, within (P (s.log ++ _)) T _ ≤ A T (F (s.log ++ _)) + 1
    rw [hP, hF]; exact h.sp
  · intro e; exact absurd e hp

theorem after_shape (i b : Nat) : ∀ (ts : List Nat) (r : RL), r.interval = i → r.burst = b → (after r ts).interval = i ∧ (after r ts).burst = b
  | [], r, h1, h2 => ⟨h1, h2⟩
  | t :: ts, r, h1, h2 => by
    refine after_shape i b ts (test r t).1 ?_ ?_ <;>
    · unfold test
      split
      · first | exact h1 | exact h2
      · split
        · first | exact h1 | exact h2
        · split
          · first | exact h1 | exact h2
          · first | exact h1 | exact h2

theorem reset_after (i b : Nat) (ts : List Nat) : reset (after (init i b) ts) = init i b := by
  obtain ⟨h1, h2⟩ := after_shape i b ts (init i b) rfl rfl
  unfold reset
  cases hr : after (init i b) ts
  rw [hr] at h1 h2
  simp only at h1 h2
  subst h1; subst h2; rfl

theorem J.userStart {s : Sup} (h : J s) (hp : s.proc ≠ .down) (tm : Option Nat) :
    J (({ s with restart := reset s.restart, exec := reset s.exec, timer := tm } : Sup).emit .userStart) := by
  have hF : F (s.log ++ [.userStart]) = [] := F_snoc _ _
  have hM : M (s.log ++ [.userStart]) = [] := M_snoc _ _
  have hP : P (s.log ++ [.userStart]) = [] := P_snoc _ _
  have hO : opens (s.log ++ [.userStart]) = opens s.log := opens_snoc _ _
  constructor
  · exact h.pos
  · show reset s.restart = after _ ((F (s.log ++ _)).map _); rw [hF, h.rst, reset_after]; rfl
  · show F (s.log ++ _) = (run _ ((F (s.log ++ _)).map _)).map _; rw [hF]; rfl
  · show reset s.exec = after _ ((M (s.log ++ _)).map _); rw [hM, h.exr, reset_after]; rfl
  · show M (s.log ++ _) = (run _ ((M (s.log ++ _)).map _)).map _; rw [hM]; rfl
  · show ∀ p ∈ F (s.log ++ _), _; rw [hF]; intro p hp; cases hp
  · show ((F (s.log ++ _)).map _).Pairwise _; rw [hF]; exact List.Pairwise.nil
  · show ∀ p ∈ M (s.log ++ _), _; rw [hM]; intro p hp; cases hp
  · show ((M (s.log ++ _)).map _).Pairwise _; rw [hM]; exact List.Pairwise.nil
  · show ∀ t ∈ P (s.log ++ _), _; rw [hP]; intro p hp; cases hp
  · show s.openCnt = min (opens (s.log ++ _)).length 1000; rw [hO]; exact h.oc
  · show opens (s.log ++ _) = (List.range (opens (s.log ++ _)).length).map _; rw [hO]; exact h.od
  · show ∀ T, within (P (s.log ++ _)) T _ ≤ A T (F (s.log ++ _)) + 1
    intro T; rw [hP]; simp [within]
  · intro e; exact absurd e hp

theorem spawn_eq {s : Sup} (h : s.proc ≠ .up) (o : Spawn) : s.spawn o =
    match o with
    | .refused => (s, false)
    | .ok => (({ s with proc := .up, openCnt := 0, child := true } : Sup).emit (.spawn s.now), true)
    | .unwatched => (({ s with proc := .up, openCnt := 0, child := false } : Sup).emit (.spawn s.now), false) := by
  unfold Sup.spawn
  rw [if_neg h]
  cases o <;> rfl

theorem step_J {s : Sup} (hk : Phase s) (h : J s) (op : Op) : J (s.step op) := by
  cases op with
  | wait d => exact h.wait d
  | start prep o =>
    show J (s.start prep o)
    unfold Sup.start
    split
    · exact h
    · rename_i hoff
      have hoff : s.proc = .off := by simpa using hoff
      have h1 : J (({ s with restart := reset s.restart, exec := reset s.exec } : Sup).emit .userStart) := h.userStart (by rw [hoff]; decide) s.timer
      have h2 : J ({ (({ s with restart := reset s.restart, exec := reset s.exec } : Sup).emit .userStart) with timer := some (s.now + 200 * 1000) } : Sup) :=
        h.userStart (by rw [hoff]; decide) (some (s.now + 200 * 1000))
      have hP : P (s.log ++ [.userStart]) = [] := P_snoc _ _
      cases prep with
      | false => exact h1.stop
      | true =>
        show J (let r := ({ (({ s with restart := reset s.restart, exec := reset s.exec } : Sup).emit .userStart) with timer := some (s.now + 200 * 1000) } : Sup).spawn o
          if r.2 then r.1 else r.1.stop)
        rw [spawn_eq (by show s.proc ≠ .up; rw [hoff]; decide)]
        have hw : ∀ T, within (P (s.log ++ [.userStart])) T (T + 10000000) = 0 := by intro T; rw [hP]; rfl
        cases o with
        | refused => exact h2.stop
        | ok => exact h2.spawned true (some (s.now + 200 * 1000)) (fun T => Or.inl (hw T))
        | unwatched => exact (h2.spawned false (some (s.now + 200 * 1000)) (fun T => Or.inl (hw T))).stop
  | stop => exact h.stop
  | fire o opened =>
    show J (if s.timer.any (· ≤ s.now) then s.fire o opened else s)
    split
    · rename_i hdue
      cases hk with
      | off a b c d e f g i => rw [c] at hdue; cases hdue
      | attaching a c d e f g i => rw [c] at hdue; cases hdue
      | devAttach a c d e f g i => rw [c] at hdue; cases hdue
      | setup q a c d e f g i j => rw [c] at hdue; cases hdue
      | down t a b c d e f g i =>
        have hle : t ≤ s.now := by rw [c] at hdue; simpa using hdue
        have hw : ∀ T, within (P s.log) T (T + 10000000) = 0 ∨ within (P s.log) T (T + 10000000) ≤ A T (F s.log) ∨ T + 10000000 < s.now := by
          intro T
          rcases h.dn a t c T with h1 | h1 | h1
          · exact Or.inl h1
          · exact Or.inr (Or.inl h1)
          · right; right; omega
        rw [fire_down a, spawn_eq (by rw [a]; decide)]
        cases o with
        | ok => exact h.spawned true _ hw
        | refused =>
          exact h.missed _ rfl (fun _ t' ht' => by rw [c] at ht'; cases ht'; exact hle) (fun _ => ⟨t, c⟩)
        | unwatched =>
          exact (h.spawned false s.timer hw).missed _ rfl (fun e => by cases e) (fun e => by cases e)
      | starting t a c d e f g i =>
        rw [fire_up a f]
        split
        · exact h.of (t := []) (by simp) rfl rfl rfl rfl rfl (fun e => by rw [show s.proc = .down from e] at a; cases a)
        · exact h.openMissed (by rw [a]; decide)
    · exact h
  | exit =>
    show J (if s.child then s.failed else s)
    split
    · exact h.failed
    · exact h
  | hup =>
    show J s.hup
    unfold Sup.hup
    split
    · exact h
    · split
      · exact h.failed.failed
      · exact h.failed
  | devHup =>
    show J s.devHup
    unfold Sup.devHup
    split
    · exact h.failed
    · exact h
  | reply a d good => exact h.reply a d good
  | devReply a good =>
    show J (s.devReply a good)
    unfold Sup.devReply
    have h1 : J { s with dev := .own false } := h.conn s.glob (.own false) s.hasP2p s.hasWfd
    split
    · split
      · exact h1.begin _
      · exact h1.failed
    · exact h

structure Inv (s : Sup) : Prop where
  k : K s
  p : Phase s
  j : J s

theorem Inv.new {t : Nat} (h : 0 < t) : Inv (new t) := by
  refine ⟨⟨rfl, rfl⟩, .off rfl rfl rfl rfl rfl rfl rfl rfl, ?_⟩
  constructor
  · exact h
  case dn => intro e; cases e
  all_goals first | rfl | (intro p hp; cases hp) | exact List.Pairwise.nil | (intro T; exact Nat.zero_le _)

theorem Inv.step {s : Sup} (h : Inv s) (op : Op) : Inv (s.step op) := by
  obtain ⟨a, b⟩ := step_inv h.k h.p op
  exact ⟨a, b, step_J h.p h.j op⟩

theorem Inv.run (ops : List Op) : ∀ {s : Sup}, Inv s → Inv (s.run ops) := by
  induction ops with
  | nil => intro s h; exact h
  | cons o t ih => intro s h; exact ih (h.step o)

end Verif.Super
