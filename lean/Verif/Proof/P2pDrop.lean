import Verif.Spec.P2p
import Mathlib.Data.List.Count
/-! Closed forms of leaving and freeing groups. -/
namespace Verif.P2p
open Verif.C

theorem upd_same {α : Type} (f : Nat → Option α) (i : Nat) (v : Option α) : upd f i v i = v := by simp [upd]
theorem upd_ne {α : Type} (f : Nat → Option α) {i j : Nat} (v : Option α) (h : j ≠ i) : upd f i v j = f j := by simp [upd, h]
theorem upd_upd {α : Type} (f : Nat → Option α) (i : Nat) (v w : Option α) : upd (upd f i v) i w = upd f i w := by
  funext j; simp only [upd]; split <;> rfl
theorem upd_self {α : Type} (f : Nat → Option α) (i : Nat) : upd f i (f i) = f := by
  funext j; simp only [upd]; split <;> simp_all

theorem emitIf_eq (s : S) (c : Bool) (o : Out) : s.emitIf c o = { s with log := s.log ++ (if c then [o] else []) } := by
  cases c <;> simp [S.emitIf, S.emit]

/-- A peer without its group. -/
def Peer.alone (y : Peer) : Peer := { y with g := none, remote := none, sta := none, connected := false }

/-- A peer leaves. -/
def S.detach (s : S) (p : Nat) (y : Peer) : S :=
  { s with pheap := upd s.pheap p (some y.alone), log := s.log ++ (if y.connected && y.shown then [.connected p false] else []) }

theorem leave_eq (s : S) (p : Nat) (y : Peer) :
    (s.setPeer p { y with g := none, remote := none, sta := none }).connectedChanged p false = some (s.detach p y) := by
  simp only [S.connectedChanged, S.setPeer, upd_same, S.detach, emitIf_eq]
  cases hc : y.connected <;> simp [upd_upd, Peer.alone, hc]

/-- A peer leaves if it is in group `g`. -/
def S.detachIf (g : Nat) (s : S) (p : Nat) : S :=
  match s.pheap p with
  | some y => if y.g = some g then s.detach p y else s
  | none => s

/-- All leave. -/
def S.detachAll (g : Nat) (s : S) (l : List Nat) : S := l.foldl (S.detachIf g) s

theorem detachIf_frame (g : Nat) (s : S) (p : Nat) :
    s.detachIf g p = { s with pheap := (s.detachIf g p).pheap, log := (s.detachIf g p).log } := by
  unfold S.detachIf
  split
  · split <;> rfl
  · rfl

theorem detachAll_frame (g : Nat) : ∀ (l : List Nat) (s : S),
    s.detachAll g l = { s with pheap := (s.detachAll g l).pheap, log := (s.detachAll g l).log }
  | [], s => rfl
  | p :: t, s => by
    show S.detachAll g (s.detachIf g p) t = _
    rw [detachAll_frame g t (s.detachIf g p)]
    have h : ∀ (a : S) (f : Nat → Option Peer) (u : List Out), a = { s with pheap := a.pheap, log := a.log } →
        ({ a with pheap := f, log := u } : S) = { s with pheap := f, log := u } := by
      intro a f u ha
      rw [ha]
    exact h _ _ _ (detachIf_frame g s p)

theorem detachIf_pheap (g : Nat) (s : S) (p q : Nat) :
    (s.detachIf g p).pheap q = if q = p then (s.pheap q).map (fun y => if y.g = some g then y.alone else y) else s.pheap q := by
  unfold S.detachIf
  by_cases h : q = p
  · subst h
    cases hp : s.pheap q with
    | none => simp [hp]
    | some y =>
      by_cases hy : y.g = some g
      · simp [hy, S.detach, upd_same]
      · simp [hy, hp]
  · split
    · split
      · simp [S.detach, upd_ne _ _ h, h]
      · simp [h]
    · simp [h]

theorem detachAll_pheap (g : Nat) : ∀ (l : List Nat) (s : S) (q : Nat),
    (s.detachAll g l).pheap q = if q ∈ l then (s.pheap q).map (fun y => if y.g = some g then y.alone else y) else s.pheap q
  | [], s, q => by simp [S.detachAll]
  | p :: t, s, q => by
    show (S.detachAll g (s.detachIf g p) t).pheap q = _
    rw [detachAll_pheap g t, detachIf_pheap]
    by_cases h : q = p
    · subst h
      cases hp : s.pheap q with
      | none => simp
      | some y =>
        by_cases hy : y.g = some g
        · simp [hy, Peer.alone]
        · simp [hy]
    · simp [h]

theorem detachAll_log (g : Nat) : ∀ (l : List Nat) (s : S),
    ∃ t, (s.detachAll g l).log = s.log ++ t ∧ ∀ o ∈ t, ∃ p ∈ l, o = .connected p false
  | [], s => ⟨[], by simp [S.detachAll]⟩
  | p :: t, s => by
    obtain ⟨u, hu, hm⟩ := detachAll_log g t (s.detachIf g p)
    have hl : ∃ v, (s.detachIf g p).log = s.log ++ v ∧ ∀ o ∈ v, o = .connected p false := by
      unfold S.detachIf
      split
      · split
        · exact ⟨_, rfl, by intro o ho; split at ho <;> simp_all⟩
        · exact ⟨[], by simp⟩
      · exact ⟨[], by simp⟩
    obtain ⟨v, hv, hv2⟩ := hl
    refine ⟨v ++ u, ?_, ?_⟩
    · show (S.detachAll g (s.detachIf g p) t).log = _
      rw [hu, hv, List.append_assoc]
    · intro o ho
      rcases List.mem_append.mp ho with ho | ho
      · exact ⟨p, List.mem_cons_self, hv2 o ho⟩
      · obtain ⟨q, hq, he⟩ := hm o ho
        exact ⟨q, List.mem_cons_of_mem _ hq, he⟩

theorem detachIf_setGrp (g h : Nat) (x : Grp) (s : S) (p : Nat) : (s.setGrp h x).detachIf g p = (s.detachIf g p).setGrp h x := by
  unfold S.detachIf
  show (match s.pheap p with | some y => _ | none => _) = _
  split
  · split <;> rfl
  · rfl

theorem detachAll_setGrp (g h : Nat) (x : Grp) : ∀ (l : List Nat) (s : S),
    (s.setGrp h x).detachAll g l = (s.detachAll g l).setGrp h x
  | [], s => rfl
  | p :: t, s => by
    show S.detachAll g ((s.setGrp h x).detachIf g p) t = _
    rw [detachIf_setGrp, detachAll_setGrp g h x t]
    rfl

theorem detachAll_none (g : Nat) : ∀ (l : List Nat) (s : S), (∀ p ∈ l, ∀ y, s.pheap p = some y → y.g ≠ some g) → s.detachAll g l = s
  | [], s, _ => rfl
  | p :: t, s, h => by
    show S.detachAll g (s.detachIf g p) t = s
    have : s.detachIf g p = s := by
      unfold S.detachIf
      split
      · rename_i y hy
        rw [if_neg (h p List.mem_cons_self y hy)]
      · rfl
    rw [this]
    exact detachAll_none g t s (fun q hq => h q (List.mem_cons_of_mem _ hq))

theorem setGrp_self {s : S} {g : Nat} {x : Grp} (h : s.gheap g = some x) : s.setGrp g x = s := by
  unfold S.setGrp; rw [← h, upd_self]

theorem setGrp_setGrp (s : S) (g : Nat) (x x' : Grp) : (s.setGrp g x).setGrp g x' = s.setGrp g x' := by
  simp [S.setGrp, upd_upd]

/-- A peer that is in the group without owning it. -/
def plainB (s : S) (g : Nat) (x : Grp) (p : Nat) : Bool := (s.pheap p).any (fun y => decide (y.g = some g)) && decide (x.owner ≠ some p)

/-- Leaving a group that is not freed by it. -/
theorem dropGroupWith_keep (f : S → Nat → Option S) {s : S} {p g : Nat} {y : Peer} {x : Grp} (hp : s.pheap p = some y)
    (hy : y.g = some g) (hx : s.gheap g = some x) (hu : x.owner = some p ∨ x.users ≠ 1) :
    S.dropGroupWith f s p = some ((s.detach p y).setGrp g { x with users := x.users - (if x.owner = some p then 0 else 1) }) := by
  unfold S.dropGroupWith
  simp only [hp, hy, hx]
  by_cases ho : x.owner = some p
  · simp only [ho, if_true, hp, leave_eq, Nat.sub_zero]
    rw [setGrp_self (s := s.detach p y)]
    show s.gheap g = _
    rw [hx, ← ho]
  · simp only [if_neg ho]
    by_cases h0 : x.users = 0
    · simp only [h0, if_true, hp, leave_eq]
      rw [setGrp_self (s := s.detach p y)]
      show s.gheap g = _
      rw [hx]
      cases x
      simp_all
    · have h1 : x.users - 1 ≠ 0 := by
        rcases hu with hu | hu
        · exact absurd hu ho
        · omega
      simp only [if_neg h0, if_pos h1]
      have : (s.setGrp g { x with users := x.users - 1 }).pheap p = some y := hp
      simp only [this, leave_eq]
      rfl

theorem plainB_detach {s : S} {g : Nat} {x x' : Grp} {p q : Nat} {y : Peer} (h : q ≠ p) (ho : x'.owner = x.owner) :
    plainB ((s.detach p y).setGrp g x') g x' q = plainB s g x q := by
  simp [plainB, S.detach, S.setGrp, upd_ne _ _ h, ho]

theorem dropAllWith_ok (f : S → Nat → Option S) (g : Nat) : ∀ (l : List Nat) (s : S) (x : Grp), (∀ p ∈ l, ∃ y, s.pheap p = some y) →
    l.Nodup → s.gheap g = some x → (l.countP (plainB s g x) < x.users ∨ x.users = 0) →
    S.dropAllWith f g s l = some ((s.detachAll g l).setGrp g { x with users := x.users - l.countP (plainB s g x) })
  | [], s, x, _, _, hx, _ => by
    simp only [S.dropAllWith, List.countP_nil, Nat.sub_zero]
    exact congrArg some (setGrp_self hx).symm
  | p :: t, s, x, hl, hn, hx, hu => by
    obtain ⟨y, hy⟩ := hl p List.mem_cons_self
    obtain ⟨hn1, hn2⟩ := List.nodup_cons.mp hn
    unfold S.dropAllWith
    simp only [hy]
    by_cases hg : y.g = some g
    · rw [if_pos hg]
      have hpl : plainB s g x p = decide (x.owner ≠ some p) := by simp [plainB, hy, hg]
      have hu1 : x.owner = some p ∨ x.users ≠ 1 := by
        by_cases ho : x.owner = some p
        · exact Or.inl ho
        · right
          rw [List.countP_cons, hpl] at hu
          simp only [ne_eq, ho, not_false_eq_true, decide_true, if_true] at hu
          omega
      rw [dropGroupWith_keep f hy hg hx hu1]
      simp only []
      have hc : ∀ u : Nat, t.countP (plainB ((s.detach p y).setGrp g { x with users := u }) g { x with users := u }) = t.countP (plainB s g x) := by
        intro u
        apply List.countP_congr
        intro q hq
        rw [plainB_detach (by rintro rfl; exact hn1 hq) rfl]
        exact Iff.rfl
      rw [dropAllWith_ok f g t _ { x with users := x.users - (if x.owner = some p then 0 else 1) } ?_ hn2 (by simp [S.setGrp, upd_same]) ?_]
      · rw [hc]
        have hd : s.detachAll g (p :: t) = (s.detach p y).detachAll g t := by
          show S.detachAll g (s.detachIf g p) t = _
          unfold S.detachIf
          simp only [hy, hg, if_true]
        rw [hd, detachAll_setGrp, setGrp_setGrp, List.countP_cons, hpl]
        congr 3
        by_cases ho : x.owner = some p <;> simp [ho]
        omega
      · intro q hq
        obtain ⟨z, hz⟩ := hl q (List.mem_cons_of_mem _ hq)
        exact ⟨z, by simp [S.setGrp, S.detach, upd_ne _ _ (show q ≠ p by rintro rfl; exact hn1 hq), hz]⟩
      · rw [hc]
        rw [List.countP_cons, hpl] at hu
        by_cases ho : x.owner = some p
        · simp [ho] at hu ⊢; exact hu
        · simp [ho] at hu ⊢; omega
    · rw [if_neg hg]
      have hpl : plainB s g x p = false := by simp [plainB, hy, hg]
      rw [List.countP_cons, hpl] at hu ⊢
      rw [dropAllWith_ok f g t s x (fun q hq => hl q (List.mem_cons_of_mem _ hq)) hn2 hx (by simpa using hu)]
      have hd : s.detachAll g (p :: t) = s.detachAll g t := by
        show S.detachAll g (s.detachIf g p) t = _
        unfold S.detachIf
        simp only [hy, hg, if_false]
      rw [hd]
      simp

/-- The state after the prologue of `supplicant_group_free`. -/
def S.killed (s : S) (g : Nat) (x : Grp) : S :=
  { s with gheap := upd s.gheap g (some { x with dhcp := false }),
           log := s.log ++ (if s.bus then [.groupRemove x.ifname] else []) ++ (if x.dhcp then [.dhcpKill g] else []) }

/-- The state after `supplicant_group_free`. -/
def S.freed (s : S) (g : Nat) (x : Grp) : S :=
  let s' := (s.killed g x).detachAll g s.peers
  { s' with groups := s.groups.erase g, gheap := upd s.gheap g none }

theorem prologue_eq (s : S) (g : Nat) (x : Grp) :
    ((s.emitIf s.bus (.groupRemove x.ifname)).setGrp g { x with dhcp := false }).emitIf x.dhcp (.dhcpKill g) = s.killed g x := by
  simp only [emitIf_eq, S.setGrp, S.killed]

theorem groupFree_ok (n : Nat) {s : S} {g : Nat} {x : Grp} (hl : ∀ p ∈ s.peers, ∃ y, s.pheap p = some y) (hn : s.peers.Nodup)
    (hx : s.gheap g = some x) (hu : s.peers.countP (plainB s g x) < x.users ∨ x.users = 0) :
    S.groupFree (n + 1) s g = some (s.freed g x) := by
  unfold S.groupFree
  simp only [hx, prologue_eq]
  have hc : s.peers.countP (plainB (s.killed g x) g { x with dhcp := false }) = s.peers.countP (plainB s g x) := rfl
  show (match S.dropAllWith (S.groupFree n) g (s.killed g x) s.peers with | none => none | some s => _) = _
  rw [dropAllWith_ok _ g s.peers (s.killed g x) { x with dhcp := false } hl hn (by simp [S.killed, upd_same]) (by rw [hc]; exact hu)]
  simp only [S.setGrp, upd_same, upd_upd, S.freed]
  rw [detachAll_frame]
  simp only [S.killed, upd_upd]

/-- Leaving the last time frees a group twice when it is done by `supplicant_group_free`. -/
theorem dropAllWith_freed (n : Nat) (g : Nat) : ∀ (l : List Nat) (s : S) (x : Grp), (∀ p ∈ l, p ∈ s.peers) →
    (∀ p ∈ s.peers, ∃ y, s.pheap p = some y) → s.peers.Nodup →
    l.Nodup → s.gheap g = some x → x.users ≤ l.countP (plainB s g x) → x.users ≠ 0 →
    ∃ s', S.dropAllWith (S.groupFree (n + 1)) g s l = some s' ∧ s'.gheap g = none
  | [], s, x, _, _, _, _, _, hu, h0 => by simp at hu; omega
  | p :: t, s, x, hsub, hl, hnp, hn, hx, hu, h0 => by
    obtain ⟨y, hy⟩ := hl p (hsub p List.mem_cons_self)
    obtain ⟨hn1, hn2⟩ := List.nodup_cons.mp hn
    unfold S.dropAllWith
    simp only [hy]
    by_cases hg : y.g = some g
    · rw [if_pos hg]
      have hpl : plainB s g x p = decide (x.owner ≠ some p) := by simp [plainB, hy, hg]
      rw [List.countP_cons, hpl] at hu
      by_cases hk : x.owner = some p ∨ x.users ≠ 1
      · rw [dropGroupWith_keep _ hy hg hx hk]
        simp only []
        have hc : ∀ u : Nat, t.countP (plainB ((s.detach p y).setGrp g { x with users := u }) g { x with users := u }) = t.countP (plainB s g x) := by
          intro u
          apply List.countP_congr
          intro q hq
          rw [plainB_detach (by rintro rfl; exact hn1 hq) rfl]
          exact Iff.rfl
        refine dropAllWith_freed n g t _ { x with users := x.users - (if x.owner = some p then 0 else 1) }
          (fun q hq => hsub q (List.mem_cons_of_mem _ hq)) ?_ hnp hn2 (by simp [S.setGrp, upd_same]) ?_ ?_
        · intro q hq
          by_cases hqp : q = p
          · subst hqp; exact ⟨y.alone, by simp [S.setGrp, S.detach, upd_same]⟩
          · obtain ⟨z, hz⟩ := hl q hq
            exact ⟨z, by simp [S.setGrp, S.detach, upd_ne _ _ hqp, hz]⟩
        · rw [hc]
          by_cases ho : x.owner = some p
          · simp [ho] at hu ⊢; exact hu
          · simp [ho] at hu ⊢; omega
        · by_cases ho : x.owner = some p
          · simp [ho]; exact h0
          · simp only [if_neg ho]
            rcases hk with hk | hk
            · exact absurd hk ho
            · omega
      · have ho : x.owner ≠ some p := fun h => hk (Or.inl h)
        have h1 : x.users = 1 := by
          by_contra h
          exact hk (Or.inr h)
        unfold S.dropGroupWith
        simp only [hy, hg, hx, if_neg ho, h1]
        rw [if_neg (by decide), if_neg (by simp)]
        rw [groupFree_ok n (s := s.setGrp g { x with users := 0 }) (x := { x with users := 0 }) hl hnp
          (by simp [S.setGrp, upd_same]) (Or.inr rfl)]
        simp only []
        have hph : ((s.setGrp g { x with users := 0 }).freed g { x with users := 0 }).pheap p = some y.alone := by
          simp only [S.freed, detachAll_pheap]
          simp [S.killed, S.setGrp, hsub p List.mem_cons_self, hy, hg]
        simp only [hph, leave_eq]
        generalize hs2 : (((s.setGrp g { x with users := 0 }).freed g { x with users := 0 }).detach p y.alone) = s2
        have hno : ∀ q ∈ t, ∃ z, s2.pheap q = some z ∧ z.g ≠ some g := by
          intro q hq
          obtain ⟨z, hz⟩ := hl q (hsub q (List.mem_cons_of_mem _ hq))
          rw [← hs2]
          simp only [S.detach, upd_ne _ _ (show q ≠ p by rintro rfl; exact hn1 hq), S.freed, detachAll_pheap]
          simp only [S.killed, S.setGrp, hsub q (List.mem_cons_of_mem _ hq), if_true, hz, Option.map_some]
          refine ⟨_, rfl, ?_⟩
          split
          · simp [Peer.alone]
          · assumption
        have hs3 : s2.gheap g = none := by
          rw [← hs2]
          simp [S.detach, S.freed, upd_same]
        refine ⟨s2, ?_, hs3⟩
        clear hs2 hs3 hsub hn hu hn1 hn2 hph
        induction t with
        | nil => rfl
        | cons q t ih =>
          obtain ⟨z, hz, hzg⟩ := hno q List.mem_cons_self
          unfold S.dropAllWith
          simp only [hz, if_neg hzg]
          exact ih (fun q hq => hno q (List.mem_cons_of_mem _ hq))
    · rw [if_neg hg]
      have hpl : plainB s g x p = false := by simp [plainB, hy, hg]
      rw [List.countP_cons, hpl] at hu
      exact dropAllWith_freed n g t s x (fun q hq => hsub q (List.mem_cons_of_mem _ hq)) hl hnp hn2 hx (by simpa using hu) h0

theorem groupFree_ub (n : Nat) {s : S} {g : Nat} {x : Grp} (hl : ∀ p ∈ s.peers, ∃ y, s.pheap p = some y) (hn : s.peers.Nodup)
    (hx : s.gheap g = some x) (hu : x.users ≤ s.peers.countP (plainB s g x)) (h0 : x.users ≠ 0) :
    S.groupFree (n + 2) s g = none := by
  unfold S.groupFree
  simp only [hx, prologue_eq]
  show (match S.dropAllWith (S.groupFree (n + 1)) g (s.killed g x) s.peers with | none => none | some s => _) = _
  obtain ⟨s', hs, hg⟩ := dropAllWith_freed n g s.peers (s.killed g x) { x with dhcp := false } (fun _ h => h) hl hn hn
    (by simp [S.killed, upd_same]) hu h0
  rw [hs]
  simp only [hg]

/-- The bound on the nesting does not matter. -/
theorem groupFree_fuel (n : Nat) {s : S} {g : Nat} (hl : ∀ p ∈ s.peers, ∃ y, s.pheap p = some y) (hn : s.peers.Nodup) :
    S.groupFree (n + 2) s g = S.groupFree depth s g := by
  cases hx : s.gheap g with
  | none => simp [S.groupFree, hx, depth]
  | some x =>
    by_cases hu : s.peers.countP (plainB s g x) < x.users ∨ x.users = 0
    · rw [groupFree_ok (n + 1) hl hn hx hu]
      exact (groupFree_ok 1 hl hn hx hu).symm
    · have h1 : x.users ≤ s.peers.countP (plainB s g x) ∧ x.users ≠ 0 := by omega
      rw [groupFree_ub n hl hn hx h1.1 h1.2]
      exact (groupFree_ub 0 hl hn hx h1.1 h1.2).symm

end Verif.P2p
