import Verif.Proof.Ipv4llLink
/-!
# Histories of one link-local client
-/
namespace Verif.Ipv4ll
open Verif.C

variable {A : Op → Env → Prop} {h : Wire.Host} {mac : List Byte} {c : Ll} {t : Nat} {l : Spec.Log}

theorem reach_good (hA : ∀ op e, A op e → Spec.Drawn e) (r : Spec.Reach A h mac c t l) : Good c ∧ c.host = h ∧ c.mac = mac := by
  induction r with
  | init => exact ⟨good_new h mac, rfl, rfl⟩
  | step r later as s ih =>
    have tr := step_trans ih.1 s
    exact ⟨trans_good ih.1 (hA _ _ as) tr, (trans_same tr).1.trans ih.2.1, (trans_same tr).2.trans ih.2.2⟩

theorem sockets_drawn : ∀ op e, Spec.Sockets op e → Spec.Drawn e := fun _ _ h => h.1

theorem any_drawn : ∀ op e, Spec.Any op e → Spec.Drawn e := fun _ _ h => h

theorem reach_listens (r : Spec.Reach Spec.Sockets h mac c t l) : Listens c := by
  induction r with
  | init => exact fun _ => ⟨by simp [new], by simp [new], by simp [new], by simp [new]⟩
  | step r later as s ih => exact trans_listens (step_trans (reach_good sockets_drawn r).1 s) ih as.2.1 as.2.2

theorem reach_held (hA : ∀ op e, A op e → Spec.Drawn e) (r : Spec.Reach A h mac c t l) : Spec.held l = heldBy c := by
  induction r with
  | init => rfl
  | step r later as s ih =>
    have g := (reach_good hA r).1
    rw [Spec.held, List.foldl_append]
    rw [Spec.held] at ih
    rw [ih]
    exact trans_held g (step_trans g s)

theorem heldBy_some {c : Ll} {x : Nat} : heldBy c = some x ↔ (c.state = .monitor ∨ c.state = .defend) ∧ c.ip = x := by
  unfold heldBy
  split
  · simp_all
  · simp_all

/-- What the state says about defending. -/
def Defends (c : Ll) (d : Option Nat) : Prop :=
  (c.state = .defend → ∃ t0, d = some t0 ∧ c.timer = some (.defend, seconds t0 10)) ∧ (c.state ≠ .defend → d = none)

theorem fold_fst (l : Spec.Log) (s : Option Nat × Option Nat) : (l.foldl Spec.defStep s).1 = l.foldl Spec.heldStep s.1 := by
  induction l generalizing s with
  | nil => rfl
  | cons x t ih => rw [List.foldl_cons, List.foldl_cons, ih]; rfl

theorem trans_defends {c' : Ll} {now : Nat} {e : Env} {op : Op} {o : List Out} {d : Option Nat} (g : Good c) (tr : Trans c now e op c' o) (hd : Defends c d) :
    Defends c' (Spec.defStep (heldBy c, d) (now, op, o)).2 := by
  cases tr with
  | started => exact ⟨fun h => by simp at h, fun _ => rfl⟩
  | stopped => exact ⟨fun h => by simp at h, fun _ => rfl⟩
  | first => exact ⟨fun h => by simp at h, fun _ => rfl⟩
  | again due hs => exact ⟨fun h => by simp [hs] at h, fun _ => rfl⟩
  | announce => exact ⟨fun h => by simp at h, fun _ => rfl⟩
  | twice due hs => exact ⟨fun h => by simp [hs] at h, fun _ => rfl⟩
  | got => exact ⟨fun h => by simp at h, fun _ => rfl⟩
  | calm => exact ⟨fun h => by simp at h, fun _ => rfl⟩
  | hup => exact hd
  | unheard =>
    refine ⟨fun h => ?_, fun h => ?_⟩
    · obtain ⟨t0, rfl, ht⟩ := hd.1 h
      exact ⟨t0, by simp [Spec.defStep, heldBy, h], ht⟩
    · have := hd.2 h
      subst this
      simp only [Spec.defStep]
      split <;> simp_all [Spec.outFrames]
  | ignored =>
    refine ⟨fun h => ?_, fun h => ?_⟩
    · obtain ⟨t0, rfl, ht⟩ := hd.1 h
      exact ⟨t0, by simp [Spec.defStep, heldBy, h], ht⟩
    · have := hd.2 h
      subst this
      simp only [Spec.defStep]
      split <;> simp_all [Spec.outFrames]
  | asked =>
    refine ⟨fun h => ?_, fun h => ?_⟩
    · have h : c.state = .defend := h
      obtain ⟨t0, rfl, ht⟩ := hd.1 h
      exact ⟨t0, by simp [Spec.defStep, heldBy, h], ht⟩
    · have := hd.2 h
      subst this
      simp only [Spec.defStep]
      split <;> simp_all [Spec.outFrames]
  | defended f hw hs =>
    refine ⟨fun _ => ⟨now, ?_, rfl⟩, fun h => by simp at h⟩
    have := hd.2 (by rw [hs]; simp)
    subst this
    simp [Spec.defStep, heldBy, hs, Spec.outFrames]
  | lost f hw hs =>
    obtain ⟨-, -, -, r4, -⟩ := retired_ip c now e
    refine ⟨fun h => by rw [r4] at h; simp at h, fun _ => ?_⟩
    obtain ⟨t0, rfl, ht⟩ := hd.1 hs
    simp [Spec.defStep, heldBy, hs]
  | conflict f hw hs =>
    obtain ⟨-, -, -, r4, -⟩ := retired_ip c now e
    refine ⟨fun h => by rw [r4] at h; simp at h, fun _ => ?_⟩
    rcases hs with hs | hs <;> simp [Spec.defStep, heldBy, hs]

theorem reach_defends (hA : ∀ op e, A op e → Spec.Drawn e) (r : Spec.Reach A h mac c t l) : Defends c (Spec.defending l) := by
  induction r with
  | init => exact ⟨fun h => by simp [new] at h, fun _ => rfl⟩
  | @step c c' t now l op e o r later as s ih =>
    have g := (reach_good hA r).1
    have hh := reach_held hA r
    rw [Spec.defending, List.foldl_append]
    have e1 : l.foldl Spec.defStep (none, none) = (heldBy c, Spec.defending l) := by
      refine Prod.ext ?_ rfl
      rw [fold_fst]
      exact hh
    rw [e1]
    exact trans_defends g (step_trans g s) ih

/-- What the state says about the packets that named the address. -/
def Counted (c : Ll) (s : Option Nat × Nat) : Prop := c.conflicts ≤ s.2 ∧ (c.watch = true → s.1 = some c.ip)

theorem named_cond {a : Nat} {f : List Byte} (h : Spec.Claims a f ∨ Spec.Asks a f) : (Spec.part f 6 2 = 1 ∨ Spec.part f 6 2 = 2) ∧ (Spec.part f 14 4 = a ∨ Spec.part f 24 4 = a) := by
  rcases h with h | h
  · exact ⟨h.1, Or.inl h.2⟩
  · exact ⟨h.1, Or.inr h.2⟩

theorem retired_frames (c : Ll) : Spec.outFrames (retiredOut c) = [] := by
  unfold retiredOut
  split <;> rfl

theorem trans_counted {c' : Ll} {now : Nat} {e : Env} {op : Op} {o : List Out} {s : Option Nat × Nat} (g : Good c) (g' : Good c') (hm : c.mac.length = 6) (tr : Trans c now e op c' o)
    (hc : Counted c s) : Counted c' (Spec.hitStep s (now, op, o)) := by
  obtain ⟨h1, h2⟩ := hc
  have hip := g'.ip
  have hq : ∀ (p : Prop) [Decidable p], s.2 ≤ (if p then s.2 + 1 else s.2) := by intro p _; split <;> omega
  have hup : ∀ f, c.watch = true → (Spec.Claims c.ip f ∨ Spec.Asks c.ip f) → ∀ o, (Spec.hitStep s (now, .recv f, o)).2 = s.2 + 1 := by
    intro f hw hn o
    have := h2 hw
    obtain ⟨s1, s2⟩ := s
    dsimp only at this
    subst this
    simp only [Spec.hitStep]
    rw [if_pos (named_cond hn)]
  have hm1 : (c.conflicts + 1) % 256 ≤ s.2 + 1 := Nat.le_trans (Nat.mod_le _ _) (by omega)
  cases tr with
  | started => exact ⟨h1, fun h => by simp at h⟩
  | stopped => exact ⟨h1, fun h => by simp at h⟩
  | first => refine ⟨h1, fun _ => ?_⟩; simp only [Spec.hitStep, Spec.outFrames, List.getLast?_singleton]; rw [(packet_parts _ hm (by decide) hip).target]
  | again => refine ⟨h1, fun _ => ?_⟩; simp only [Spec.hitStep, Spec.outFrames, List.getLast?_singleton]; rw [(packet_parts _ hm (by decide) hip).target]
  | announce => refine ⟨h1, fun _ => ?_⟩; simp only [Spec.hitStep, Spec.outFrames, List.getLast?_singleton]; rw [(packet_parts _ hm hip hip).target]
  | twice => refine ⟨h1, fun _ => ?_⟩; simp only [Spec.hitStep, Spec.outFrames, List.getLast?_singleton]; rw [(packet_parts _ hm hip hip).target]
  | got => exact ⟨Nat.zero_le _, h2⟩
  | calm => exact ⟨Nat.zero_le _, h2⟩
  | hup => exact ⟨h1, fun h => by simp at h⟩
  | unheard f hw => refine ⟨Nat.le_trans h1 ?_, fun h => by rw [hw] at h; cases h⟩; simp only [Spec.hitStep]; split <;> first | exact hq _ | exact Nat.le_refl _
  | ignored f hw => refine ⟨Nat.le_trans h1 ?_, h2⟩; simp only [Spec.hitStep]; split <;> first | exact hq _ | exact Nat.le_refl _
  | asked f hw hs n1 n2 => exact ⟨by rw [hup f hw (Or.inr n2)]; exact hm1, h2⟩
  | defended f hw hs n1 =>
    refine ⟨by rw [hup f hw (Or.inl n1)]; exact hm1, fun _ => ?_⟩
    simp only [Spec.hitStep, Spec.outFrames, List.getLast?_singleton]; rw [(packet_parts _ hm hip hip).target]
  | lost f hw hs n1 =>
    obtain ⟨-, r2, -, -, -, -, -, r8⟩ := retired_ip c now e
    exact ⟨by rw [hup f hw (Or.inl n1), r8]; exact hm1, fun h => by rw [r2] at h; cases h⟩
  | conflict f hw hs n1 =>
    obtain ⟨-, r2, -, -, -, -, -, r8⟩ := retired_ip c now e
    exact ⟨by rw [hup f hw n1, r8]; exact hm1, fun h => by rw [r2] at h; cases h⟩

theorem reach_counted (hm : mac.length = 6) (hA : ∀ op e, A op e → Spec.Drawn e) (r : Spec.Reach A h mac c t l) : Counted c (l.foldl Spec.hitStep (none, 0)) := by
  induction r with
  | init => exact ⟨Nat.le_refl 0, fun h => by simp [new] at h⟩
  | @step c c' t now l op e o r later as s ih =>
    obtain ⟨g, -, gm⟩ := reach_good hA r
    rw [List.foldl_append]
    have tr := step_trans g s
    exact trans_counted g (trans_good g (hA _ _ as) tr) (by rw [gm]; exact hm) tr ih

/-- The times of the frames and of the timer. -/
def Sched : St → Nat → List Nat → Nat → Prop
  | .probe, 1, [t1], due => t1 + 1000 ≤ due
  | .probe, 2, [t1, t2], due => t1 + 1000 ≤ t2 ∧ t2 + 1000 ≤ due
  | .probe, 3, [t1, t2, t3], due => t1 + 1000 ≤ t2 ∧ t2 + 1000 ≤ t3 ∧ t3 + 2000 ≤ due
  | .announce, 1, [t1, t2, t3, t4], due => t1 + 1000 ≤ t2 ∧ t2 + 1000 ≤ t3 ∧ t3 + 2000 ≤ t4 ∧ t4 + 1750 ≤ due
  | .announce, 2, [t1, t2, t3, t4, t5], due => t1 + 1000 ≤ t2 ∧ t2 + 1000 ≤ t3 ∧ t3 + 2000 ≤ t4 ∧ t4 + 1750 ≤ t5 ∧ t5 + 1750 ≤ due
  | _, _, _, _ => False

/-- The attempt so far. -/
def Tried (c : Ll) (l : Spec.Log) (due : Nat) : Prop :=
  ∃ before since ts, l = before ++ since ∧ Spec.Quiet c.ip since ∧ Sched c.state c.retry ts due ∧
    Spec.sent since = ts.zip [arpPacket c.host c.mac 0 c.ip, arpPacket c.host c.mac 0 c.ip, arpPacket c.host c.mac 0 c.ip, arpPacket c.host c.mac c.ip c.ip, arpPacket c.host c.mac c.ip c.ip]

theorem sent_snoc (l : Spec.Log) (now : Nat) (op : Op) (o : List Out) : Spec.sent (l ++ [(now, op, o)]) = Spec.sent l ++ (Spec.outFrames o).map (now, ·) := by
  induction l with
  | nil => simp [Spec.sent]
  | cons x t ih => obtain ⟨a, b, d⟩ := x; simp [Spec.sent, ih]

theorem quiet_snoc {a : Nat} {l : Spec.Log} {x : Nat × Op × List Out} (hl : Spec.Quiet a l) (hx : x.2.1 ≠ .start ∧ x.2.1 ≠ .stop ∧ ∀ f, x.2.1 = .recv f → ¬ Spec.Claims a f ∧ ¬ Spec.Asks a f) :
    Spec.Quiet a (l ++ [x]) := by
  intro y hy
  rcases List.mem_append.mp hy with hy | hy
  · exact hl y hy
  · rw [List.mem_singleton.mp hy]; exact hx

theorem quiet_fire {a now : Nat} {l : Spec.Log} {o : List Out} (hl : Spec.Quiet a l) : Spec.Quiet a (l ++ [(now, .fire, o)]) :=
  quiet_snoc hl ⟨by simp, by simp, fun f h => by simp at h⟩

theorem sched_probe {r : Nat} {ts : List Nat} {due : Nat} (h : Sched .probe r ts due) :
    (r = 1 ∧ ∃ t1, ts = [t1] ∧ t1 + 1000 ≤ due) ∨ (r = 2 ∧ ∃ t1 t2, ts = [t1, t2] ∧ t1 + 1000 ≤ t2 ∧ t2 + 1000 ≤ due) ∨
      (r = 3 ∧ ∃ t1 t2 t3, ts = [t1, t2, t3] ∧ t1 + 1000 ≤ t2 ∧ t2 + 1000 ≤ t3 ∧ t3 + 2000 ≤ due) := by
  unfold Sched at h
  split at h
  · exact Or.inl ⟨rfl, _, rfl, h⟩
  · exact Or.inr (Or.inl ⟨rfl, _, _, rfl, h⟩)
  · exact Or.inr (Or.inr ⟨rfl, _, _, _, rfl, h⟩)
  · rename_i hs; cases hs
  · rename_i hs; cases hs
  · cases h

theorem sched_announce {r : Nat} {ts : List Nat} {due : Nat} (h : Sched .announce r ts due) :
    (r = 1 ∧ ∃ t1 t2 t3 t4, ts = [t1, t2, t3, t4] ∧ t1 + 1000 ≤ t2 ∧ t2 + 1000 ≤ t3 ∧ t3 + 2000 ≤ t4 ∧ t4 + 1750 ≤ due) ∨
      (r = 2 ∧ ∃ t1 t2 t3 t4 t5, ts = [t1, t2, t3, t4, t5] ∧ t1 + 1000 ≤ t2 ∧ t2 + 1000 ≤ t3 ∧ t3 + 2000 ≤ t4 ∧ t4 + 1750 ≤ t5 ∧ t5 + 1750 ≤ due) := by
  unfold Sched at h
  split at h
  · rename_i hs; cases hs
  · rename_i hs; cases hs
  · rename_i hs; cases hs
  · exact Or.inl ⟨rfl, _, _, _, _, rfl, h⟩
  · exact Or.inr ⟨rfl, _, _, _, _, _, rfl, h⟩
  · cases h

theorem reach_tried (r : Spec.Reach Spec.Sockets h mac c t l) :
    ∀ k due, c.timer = some (k, due) → (k = .probe ∨ k = .announce) → Tried c l due := by
  induction r with
  | init => intro k due ht; simp [new] at ht
  | @step c c' t now l op e o r later as s ih =>
    obtain ⟨g, -, gm⟩ := reach_good sockets_drawn r
    have li := reach_listens r
    have tr := step_trans g s
    intro k due ht hk
    cases tr with
    | started => cases ht; simp at hk
    | stopped => cases ht
    | first due0 ht0 hd ha hr x hx =>
      cases ht
      refine ⟨l, [(now, .fire, _)], [now], rfl, quiet_fire (l := []) (fun _ h => by cases h), ?_, rfl⟩
      dsimp only
      rw [hr]
      simp only [Sched]
      omega
    | again due0 hs ht0 hd h1 h2 hi =>
      obtain ⟨b, si, ts, hl, hq, hsch, hse⟩ := ih _ _ ht0 (Or.inl rfl)
      cases ht
      rw [hs] at hsch
      rcases sched_probe hsch with ⟨r1, t1, rfl, a1⟩ | ⟨r1, t1, t2, rfl, a1, a2⟩ | ⟨r1, -⟩
      · refine ⟨b, si ++ [(now, .fire, _)], [t1, now], by rw [hl, List.append_assoc], quiet_fire hq, ?_, ?_⟩
        · dsimp only; rw [hs, r1]; simp only [Sched]; exact ⟨by omega, by simp⟩
        · rw [sent_snoc, hse]; rfl
      · refine ⟨b, si ++ [(now, .fire, _)], [t1, t2, now], by rw [hl, List.append_assoc], quiet_fire hq, ?_, ?_⟩
        · dsimp only; rw [hs, r1]; simp only [Sched]; exact ⟨a1, by omega, by simp⟩
        · rw [sent_snoc, hse]; rfl
      · omega
    | announce due0 hs ht0 hd hr hi =>
      obtain ⟨b, si, ts, hl, hq, hsch, hse⟩ := ih _ _ ht0 (Or.inl rfl)
      cases ht
      rw [hs] at hsch
      rcases sched_probe hsch with ⟨r1, -⟩ | ⟨r1, -⟩ | ⟨r1, t1, t2, t3, rfl, a1, a2, a3⟩
      · omega
      · omega
      · refine ⟨b, si ++ [(now, .fire, _)], [t1, t2, t3, now], by rw [hl, List.append_assoc], quiet_fire hq, ?_, ?_⟩
        · dsimp only; simp only [Sched]; exact ⟨a1, a2, by omega, by unfold seconds; omega⟩
        · rw [sent_snoc, hse]; rfl
    | twice due0 hs ht0 hd hr hi =>
      obtain ⟨b, si, ts, hl, hq, hsch, hse⟩ := ih _ _ ht0 (Or.inr rfl)
      cases ht
      rw [hs] at hsch
      rcases sched_announce hsch with ⟨r1, t1, t2, t3, t4, rfl, a1, a2, a3, a4⟩ | ⟨r1, -⟩
      · refine ⟨b, si ++ [(now, .fire, _)], [t1, t2, t3, t4, now], by rw [hl, List.append_assoc], quiet_fire hq, ?_, ?_⟩
        · dsimp only; rw [hs]; simp only [Sched]; exact ⟨a1, a2, a3, by omega, by unfold seconds; omega⟩
        · rw [sent_snoc, hse]; rfl
      · omega
    | got => cases ht
    | calm => cases ht
    | hup => exact absurd rfl as.2.2
    | unheard f hw =>
      exfalso
      have := li hw
      rcases hk with rfl | rfl
      · exact this.2.2.2 due ht
      · cases g.shape with
        | announcing hs => exact this.1 hs
        | _ => simp_all
    | ignored f hw n1 n2 =>
      obtain ⟨b, si, ts, hl, hq, hsch, hse⟩ := ih _ _ ht hk
      refine ⟨b, si ++ [(now, .recv f, [])], ts, by rw [hl, List.append_assoc], quiet_snoc hq ⟨by simp, by simp, ?_⟩, hsch, ?_⟩
      · intro f' hf'; cases hf'; exact ⟨n1, n2⟩
      · rw [sent_snoc, hse]; simp [Spec.outFrames]
    | asked f hw hs =>
      exfalso
      have ht : c.timer = some (k, due) := ht
      cases g.shape with
      | monitor _ ht' => rw [ht] at ht'; cases ht'
      | defend _ _ ht' => rw [ht] at ht'; cases ht'; simp at hk
      | _ => simp_all
    | defended => cases ht; simp at hk
    | lost f hw hs =>
      exfalso
      unfold retired at ht
      dsimp only at ht
      split at ht <;> simp at ht
      rw [← ht.1] at hk; simp at hk
    | conflict f hw hs =>
      exfalso
      unfold retired at ht
      dsimp only at ht
      split at ht <;> simp at ht
      rw [← ht.1] at hk; simp at hk

/-- The address the getter gives is none or the one reported last. -/
theorem reach_assigned (hA : ∀ op e, A op e → Spec.Drawn e) (r : Spec.Reach A h mac c t l) :
    (c.assigned = none ∨ c.assigned = Spec.reported l) ∧ (∀ x, heldBy c = some x → c.assigned = some x) := by
  induction r with
  | init => exact ⟨Or.inl rfl, fun x hx => by simp [heldBy, new] at hx⟩
  | @step c c' t now l op e o r later as s ih =>
    obtain ⟨g, -, -⟩ := reach_good hA r
    have tr := step_trans g s
    have hr : Spec.reported (l ++ [(now, op, o)]) = Spec.heldOuts (Spec.reported l) o := by
      unfold Spec.reported; rw [List.foldl_append]; rfl
    rw [hr]
    have hg := trans_held g tr
    have r7 := (retired_ip c now e).2.2.2.2.2.2.1
    have r4 := (retired_ip c now e).2.2.2.1
    have hn : heldBy (retired c now e) = none := by unfold heldBy; simp [r4]
    cases tr with
    | started => exact ⟨ih.1, fun x hx => by simp [heldBy] at hx⟩
    | stopped => exact ⟨ih.1, fun x hx => by simp [heldBy] at hx⟩
    | first => exact ⟨ih.1, fun x hx => by simp [heldBy] at hx⟩
    | again due hs => exact ⟨ih.1, fun x hx => by simp [heldBy, hs] at hx⟩
    | announce => exact ⟨ih.1, fun x hx => by simp [heldBy] at hx⟩
    | twice due hs => exact ⟨ih.1, fun x hx => by simp [heldBy, hs] at hx⟩
    | got => exact ⟨Or.inr rfl, fun x hx => hx⟩
    | calm due hs => exact ⟨ih.1, fun x hx => ih.2 x (by rw [← hx]; simp [heldBy, hs])⟩
    | hup => exact ih
    | unheard => exact ih
    | ignored => exact ih
    | asked => exact ih
    | defended f hw hs => exact ⟨ih.1, fun x hx => ih.2 x (by rw [← hx]; simp [heldBy, hs])⟩
    | lost => exact ⟨Or.inl r7, fun x hx => by rw [hn] at hx; cases hx⟩
    | conflict => exact ⟨Or.inl r7, fun x hx => by rw [hn] at hx; cases hx⟩

theorem seconds_inj {a b : Nat} (h : seconds a 10 = seconds b 10) : a = b := by unfold seconds at h; omega

theorem seconds_due {a due now : Nat} (h : due = seconds a 10) (hd : due ≤ now) : a + 9750 ≤ now := by unfold seconds at h; omega

theorem fire_ex {c : Ll} {now due : Nat} {e : Env} {k : Kind} (ht : c.timer = some (k, due)) (hd : due ≤ now) : ∃ r, c.step now e .fire = some r := by
  simp only [Ll.step, ht, hd, if_true]
  exact ⟨_, rfl⟩

/-- The first probe. -/
theorem fire_first {c : Ll} {now due : Nat} {e : Env} (g : Good c) (ht : c.timer = some (.sendProbe, due)) (hd : due ≤ now) :
    c.step now e .fire = some ({ c with ip := if c.ip = 0 then e.ip else c.ip, state := .probe, timer := some (.probe, now + (delay e + 1000)), arp := e.opens, watch := e.opens },
      [.arp (arpPacket c.host c.mac 0 (if c.ip = 0 then e.ip else c.ip))]) := by
  obtain ⟨⟨c', o⟩, hr⟩ := fire_ex (e := e) ht hd
  rw [hr]
  have tr := step_trans g hr
  cases tr with
  | first _ _ _ _ _ x hx => rw [hx]
  | _ => simp_all

theorem fire_again {c : Ll} {now due : Nat} {e : Env} (g : Good c) (ht : c.timer = some (.probe, due)) (hd : due ≤ now) (hr : c.retry < 3) :
    c.step now e .fire = some ({ c with retry := c.retry + 1, timer := some (.probe, now + if c.retry + 1 < 3 then delay e + 1000 else 2000) }, [.arp (arpPacket c.host c.mac 0 c.ip)]) := by
  obtain ⟨⟨c', o⟩, hq⟩ := fire_ex (e := e) ht hd
  rw [hq]
  have tr := step_trans g hq
  cases tr with
  | again => rfl
  | _ => simp_all

theorem fire_announce {c : Ll} {now due : Nat} {e : Env} (g : Good c) (ht : c.timer = some (.probe, due)) (hd : due ≤ now) (hr : c.retry = 3) :
    c.step now e .fire = some ({ c with state := .announce, retry := 1, timer := some (.announce, seconds now 2) }, [.arp (arpPacket c.host c.mac c.ip c.ip)]) := by
  obtain ⟨⟨c', o⟩, hq⟩ := fire_ex (e := e) ht hd
  rw [hq]
  have tr := step_trans g hq
  cases tr with
  | announce => rfl
  | _ => simp_all

theorem fire_twice {c : Ll} {now due : Nat} {e : Env} (g : Good c) (ht : c.timer = some (.announce, due)) (hd : due ≤ now) (hr : c.retry = 1) :
    c.step now e .fire = some ({ c with retry := 2, timer := some (.announce, seconds now 2) }, [.arp (arpPacket c.host c.mac c.ip c.ip)]) := by
  obtain ⟨⟨c', o⟩, hq⟩ := fire_ex (e := e) ht hd
  rw [hq]
  have tr := step_trans g hq
  cases tr with
  | twice => rfl
  | _ => simp_all

theorem fire_got {c : Ll} {now due : Nat} {e : Env} (g : Good c) (ht : c.timer = some (.announce, due)) (hd : due ≤ now) (hr : c.retry = 2) :
    c.step now e .fire = some ({ c with state := .monitor, assigned := some c.ip, conflicts := 0, timer := none }, [.available (some c.ip)]) := by
  obtain ⟨⟨c', o⟩, hq⟩ := fire_ex (e := e) ht hd
  rw [hq]
  have tr := step_trans g hq
  cases tr with
  | got => rfl
  | _ => simp_all

end Verif.Ipv4ll
