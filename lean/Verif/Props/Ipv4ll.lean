import Verif.Proof.Ipv4llLog
/-!
# Properties of the link-local client (C118-C121)
-/
namespace Verif.Ipv4ll
open Verif.C

/-! ### C118: an address is reported only after it was asked for -/

/-- **C118** (partial: the socket works; see `deaf_claims`).  When the client reports an address, the last part of its
history consists of three probes for it, at least a second apart, two more seconds, and two announcements, each with
1.75 seconds before the next step; in all that time nobody claimed the address or asked for it, and nothing else was sent. -/
theorem probed_first_partial {h : Wire.Host} {mac : List Byte} {c c' : Ll} {t now : Nat} {l : Spec.Log} {op : Op} {e : Env} {o : List Out} {a : Option Nat} (hm : mac.length = 6)
    (r : Spec.Reach Spec.Sockets h mac c t l) (s : c.step now e op = some (c', o)) (ha : .available a ∈ o) :
    ∃ x before since p q t1 t2 t3 t4 t5, a = some x ∧ l = before ++ since ∧ Spec.Quiet x since ∧ Spec.Request mac 0 x p ∧ Spec.Request mac x x q ∧
      Spec.sent since = [(t1, p), (t2, p), (t3, p), (t4, q), (t5, q)] ∧ t1 + 1000 ≤ t2 ∧ t2 + 1000 ≤ t3 ∧ t3 + 2000 ≤ t4 ∧ t4 + 1750 ≤ t5 ∧ t5 + 1750 ≤ now := by
  obtain ⟨g, gh, gm⟩ := reach_good sockets_drawn r
  cases step_trans g s with
  | got due hs ht hd hr hi =>
    simp only [List.mem_singleton, Out.available.injEq] at ha
    obtain ⟨b, si, ts, hl, hq, hsch, hse⟩ := reach_tried r _ _ ht (Or.inr rfl)
    rw [hs] at hsch
    rcases sched_announce hsch with ⟨r1, -⟩ | ⟨-, t1, t2, t3, t4, t5, rfl, a1, a2, a3, a4, a5⟩
    · omega
    · refine ⟨c.ip, b, si, _, _, t1, t2, t3, t4, t5, ha, hl, hq, ?_, ?_, hse, a1, a2, a3, a4, by omega⟩
      · rw [gm]; exact packet_parts _ hm (by decide) g.ip
      · rw [gm]; exact packet_parts _ hm g.ip g.ip
  | lost => unfold retiredOut at ha; split at ha <;> simp at ha
  | conflict => unfold retiredOut at ha; split at ha <;> simp at ha
  | _ => simp at ha

/-- **C118**, the other direction: a client that is started and left alone gets the address it drew, wherever it was before. -/
theorem quiet_gets {A : Op → Env → Prop} {h : Wire.Host} {mac : List Byte} {c : Ll} {t : Nat} {l : Spec.Log} (hm : mac.length = 6) (hA : ∀ op e, A op e → Spec.Drawn e)
    (r : Spec.Reach A h mac c t l) (e0 e1 e2 e3 e4 e5 e6 : Env) (he0 : Spec.Drawn e0) (he : Spec.Drawn e1 ∧ Spec.Drawn e2 ∧ Spec.Drawn e3 ∧ Spec.Drawn e4 ∧ Spec.Drawn e5) {t0 t1 t2 t3 t4 t5 t6 : Nat} (h1 : t0 + 1000 ≤ t1) (h2 : t1 + 2000 ≤ t2) (h3 : t2 + 2000 ≤ t3) (h4 : t3 + 2000 ≤ t4)
    (h5 : t4 + 2000 ≤ t5) (h6 : t5 + 2000 ≤ t6) :
    ∃ c0 c1 c2 c3 c4 c5 c6 p q, c.step t0 e0 .start = some (c0, []) ∧ c0.step t1 e1 .fire = some (c1, [.arp p]) ∧ c1.step t2 e2 .fire = some (c2, [.arp p]) ∧
      c2.step t3 e3 .fire = some (c3, [.arp p]) ∧ c3.step t4 e4 .fire = some (c4, [.arp q]) ∧ c4.step t5 e5 .fire = some (c5, [.arp q]) ∧
      c5.step t6 e6 .fire = some (c6, [.available (some e0.ip)]) ∧ c6.getAddress = some e0.ip ∧ Spec.Request mac 0 e0.ip p ∧ Spec.Request mac e0.ip e0.ip q := by
  have g := (reach_good hA r).1
  have dl : ∀ e, delay e < 1000 := fun e => Nat.mod_lt _ (by decide)
  have hip : ¬ e0.ip = 0 := by have := he0.1; omega
  have s0 : c.step t0 e0 .start = some ({ c with state := .initSelecting, ip := e0.ip, retry := 1, timer := some (.sendProbe, t0 + delay e0), arp := false, watch := false }, []) := by
    simp only [Ll.step, Ll.start]
    rw [deaf_eq (c := { c with state := .initSelecting, timer := none }) g.watch]
  have d0 := dl e0
  have d1 := dl e1
  have d2 := dl e2
  obtain ⟨gg, gh, gm⟩ := reach_good hA r
  obtain ⟨q1, q2, q3, q4, q5⟩ := he
  have g0 := trans_good gg he0 (step_trans gg s0)
  have k1 : t0 + delay e0 ≤ t1 := by omega
  have k2 : t1 + (delay e1 + 1000) ≤ t2 := Nat.le_trans (Nat.add_le_add_left (Nat.add_le_add_right (Nat.le_of_lt d1) 1000) t1) h2
  have k3 : t2 + (delay e2 + 1000) ≤ t3 := Nat.le_trans (Nat.add_le_add_left (Nat.add_le_add_right (Nat.le_of_lt d2) 1000) t2) h3
  have k5 : seconds t4 2 ≤ t5 := Nat.le_trans (Nat.sub_le _ _) h5
  have k6 : seconds t5 2 ≤ t6 := Nat.le_trans (Nat.sub_le _ _) h6
  have s1 := fire_first (now := t1) (e := e1) g0 rfl k1
  have g1 := trans_good g0 q1 (step_trans g0 s1)
  have s2 := fire_again (now := t2) (e := e2) g1 rfl k2 (by decide : 1 < 3)
  have g2 := trans_good g1 q2 (step_trans g1 s2)
  have s3 := fire_again (now := t3) (e := e3) g2 rfl k3 (by decide : 2 < 3)
  have g3 := trans_good g2 q3 (step_trans g2 s3)
  have s4 := fire_announce (now := t4) (e := e4) g3 rfl h4 rfl
  have g4 := trans_good g3 q4 (step_trans g3 s4)
  have s5 := fire_twice (now := t5) (e := e5) g4 rfl k5 rfl
  have g5 := trans_good g4 q5 (step_trans g4 s5)
  have s6 := fire_got (now := t6) (e := e6) g5 rfl k6 rfl
  simp only [if_neg hip] at s1 s2 s3 s4 s5 s6
  refine ⟨_, _, _, _, _, _, _, _, _, s0, s1, s2, s3, s4, s5, s6, rfl, ?_, ?_⟩
  · rw [gm]; exact packet_parts _ hm (by decide) he0.2
  · rw [gm]; exact packet_parts _ hm he0.2 he0.2

/-- An environment. -/
def env0 : Env := { opens := true, ip := 0xa9fe0102, rand := 5 }

/-- Hardware addresses. -/
def mac0 : List Byte := [2, 0, 0, 0, 0, 1]

/-- Another one. -/
def mac1 : List Byte := [2, 0, 0, 0, 0, 2]

/-- Several events: the outputs of each. -/
def play (c : Ll) : List (Nat × Env × Op) → Option (Ll × Spec.Log)
  | [] => some (c, [])
  | (now, e, op) :: t => match c.step now e op with
    | some (c', o) => (play c' t).map (fun r => (r.1, (now, op, o) :: r.2))
    | none => none

/-- What `play` gives is a history. -/
theorem play_reach {A : Op → Env → Prop} {h : Wire.Host} {mac : List Byte} {evs : List (Nat × Env × Op)} {c c' : Ll} {t : Nat} {l l' : Spec.Log} (r : Spec.Reach A h mac c t l)
    (hA : ∀ x ∈ evs, A x.2.2 x.2.1) (ht : (t :: evs.map (·.1)).Pairwise (· ≤ ·)) (hp : play c evs = some (c', l')) : ∃ t', Spec.Reach A h mac c' t' (l ++ l') := by
  induction evs generalizing c t l l' with
  | nil => cases hp; exact ⟨t, by rw [List.append_nil]; exact r⟩
  | cons x w ih =>
    obtain ⟨now, e, op⟩ := x
    simp only [play] at hp
    split at hp
    · rename_i c1 o hs
      simp only [Option.map_eq_some_iff] at hp
      obtain ⟨⟨c2, l2⟩, hp, he⟩ := hp
      cases he
      simp only [List.map_cons, List.pairwise_cons] at ht
      obtain ⟨t', hr⟩ := ih (Spec.Reach.step r (ht.1 now List.mem_cons_self) (hA _ List.mem_cons_self) hs) (fun y hy => hA y (List.mem_cons_of_mem _ hy))
        (by rw [List.pairwise_cons]; exact ht.2) hp
      exact ⟨t', by rw [List.append_cons]; exact hr⟩
    · cases hp

/-- A client that gets its address, with a packet for somebody else in between. -/
def calm0 : List (Nat × Env × Op) :=
  [(0, env0, .start), (5, env0, .fire), (1010, env0, .fire), (1500, env0, .recv (arpPacket .le mac1 0xa9fe0909 0xa9fe0808)), (2015, env0, .fire), (4015, env0, .fire), (5765, env0, .fire)]

-- C118, non-vacuity: the hypotheses hold for a client about to get its address, and it gets it
example : ∃ c t l, Spec.Reach Spec.Sockets .le mac0 c t l ∧ (c.step 7515 env0 .fire).map (·.2) = some [.available (some 0xa9fe0102)] := by
  obtain ⟨c, l, hp, hs⟩ : ∃ c l, play (new .le mac0) calm0 = some (c, l) ∧ (c.step 7515 env0 .fire).map (·.2) = some [.available (some 0xa9fe0102)] :=
    ⟨_, _, by unfold calm0; rfl, by decide +kernel⟩
  obtain ⟨t, hr⟩ := play_reach (A := Spec.Sockets) (.init (h := .le) (mac := mac0)) (by unfold calm0 Spec.Sockets Spec.Drawn; decide +kernel) (by decide +kernel) hp
  exact ⟨c, t, _, hr, hs⟩

-- Too early, there is no such event
example : ((play (new .le mac0) calm0).map (fun r => (r.1.step 7514 env0 .fire).map (·.2))) = some none := by decide +kernel

/-- **C118** fails when the socket cannot be opened: the result of `switch_listening_mode` is ignored, and the client takes an
address that somebody claims each time it asks. -/
theorem deaf_claims :
    ((play (new .le mac0) [(0, env0, .start), (5, { env0 with opens := false }, .fire), (6, env0, .recv (arpPacket .le mac1 0xa9fe0102 0xa9fe0102)), (1010, env0, .fire),
        (1011, env0, .recv (arpPacket .le mac1 0xa9fe0102 0xa9fe0102)), (2015, env0, .fire), (4015, env0, .fire), (5765, env0, .fire), (7515, env0, .fire)]).map
      (fun r => r.2.map (fun x => x.2.2.filter (fun o => match o with | .arp _ => false | _ => true)))) = some [[], [], [], [], [], [], [], [], [.available (some 0xa9fe0102)]] := by
  decide +kernel

/-! ### C119: an address that is held is defended once -/

/-- **C119** (partial: the socket works).  While the client holds an address: a packet in which nobody claims it has no effect; the first claim is answered by one
announcement and the address stays; a claim while the client still remembers one makes it give the address up. -/
theorem defended_partial {h : Wire.Host} {mac : List Byte} {c c' : Ll} {t now x : Nat} {l : Spec.Log} {f : List Byte} {e : Env} {o : List Out} (hm : mac.length = 6)
    (r : Spec.Reach Spec.Sockets h mac c t l) (later : t ≤ now) (as : Spec.Sockets (.recv f) e) (hx : Spec.held l = some x) (s : c.step now e (.recv f) = some (c', o)) :
    (¬ Spec.Claims x f → o = [] ∧ Spec.held (l ++ [(now, .recv f, o)]) = some x ∧ Spec.defending (l ++ [(now, .recv f, o)]) = Spec.defending l) ∧
    (Spec.Claims x f → Spec.defending l = none →
      ∃ q, o = [.arp q] ∧ Spec.Request mac x x q ∧ Spec.held (l ++ [(now, .recv f, o)]) = some x ∧ Spec.defending (l ++ [(now, .recv f, o)]) = some now) ∧
    (Spec.Claims x f → ∀ t0, Spec.defending l = some t0 → (o = [.lost] ∨ o = [.lost, .noLease]) ∧ Spec.held (l ++ [(now, .recv f, o)]) = none) := by
  obtain ⟨g, gh, gm⟩ := reach_good sockets_drawn r
  have li := reach_listens r
  have hd := reach_defends sockets_drawn r
  have r' := Spec.Reach.step r later as s
  have hx' := reach_held sockets_drawn r'
  have hd' := reach_defends sockets_drawn r'
  rw [hx']
  rw [reach_held sockets_drawn r, heldBy_some] at hx
  obtain ⟨hst, rfl⟩ := hx
  have hw : c.watch = true := by
    cases hw : c.watch with
    | true => rfl
    | false => have := li hw; rcases hst with hst | hst <;> simp_all
  cases step_trans g s with
  | unheard _ hw' => rw [hw'] at hw; cases hw
  | ignored _ _ h1 _ =>
    refine ⟨fun _ => ⟨rfl, heldBy_some.mpr ⟨hst, rfl⟩, ?_⟩, fun h => absurd h h1, fun h => absurd h h1⟩
    by_cases hs : c.state = .defend
    · obtain ⟨t0, e1, e2⟩ := hd.1 hs
      obtain ⟨t1, e3, e4⟩ := hd'.1 hs
      rw [e1, e3]
      rw [e2] at e4
      simp only [Option.some.injEq, Prod.mk.injEq, true_and] at e4 ⊢
      exact seconds_inj (by first | exact e4.symm | exact e4)
    · rw [hd.2 hs, hd'.2 hs]
  | asked _ _ _ h1 _ =>
    refine ⟨fun _ => ⟨rfl, heldBy_some.mpr ⟨hst, rfl⟩, ?_⟩, fun h => absurd h h1, fun h => absurd h h1⟩
    by_cases hs : c.state = .defend
    · obtain ⟨t0, e1, e2⟩ := hd.1 hs
      obtain ⟨t1, e3, e4⟩ := hd'.1 hs
      rw [e1, e3]
      have e4 : c.timer = some (.defend, seconds t1 10) := e4
      rw [e2] at e4
      simp only [Option.some.injEq, Prod.mk.injEq, true_and] at e4 ⊢
      exact seconds_inj (by first | exact e4.symm | exact e4)
    · rw [hd.2 hs, hd'.2 hs]
  | defended _ _ hs h1 =>
    refine ⟨fun h => absurd h1 h, fun _ _ => ⟨_, rfl, ?_, heldBy_some.mpr ⟨Or.inr rfl, rfl⟩, ?_⟩, fun _ t0 ht => ?_⟩
    · rw [gm]; exact packet_parts _ hm g.ip g.ip
    · obtain ⟨t1, e3, e4⟩ := hd'.1 rfl
      rw [e3]
      simp only [Option.some.injEq, Prod.mk.injEq, true_and] at e4 ⊢
      exact seconds_inj (by first | exact e4.symm | exact e4)
    · rw [hd.2 (by rw [hs]; simp)] at ht; cases ht
  | lost _ _ hs h1 =>
    obtain ⟨-, -, -, r4, -⟩ := retired_ip c now e
    refine ⟨fun h => absurd h1 h, fun _ ht => ?_, fun _ t0 ht => ⟨?_, ?_⟩⟩
    · obtain ⟨t1, e3, -⟩ := hd.1 hs
      rw [ht] at e3; cases e3
    · unfold retiredOut; split <;> simp
    · unfold heldBy; simp [r4]
  | conflict _ _ hs => rcases hs with hs | hs <;> rw [hs] at hst <;> simp at hst

/-- **C119**: an address that is held is given up only for a claim, the second one within the time the client remembers the first; the client forgets a
claim after ten seconds (GLib may be a quarter of a second early) and not before. -/
theorem remembers {h : Wire.Host} {mac : List Byte} {c c' : Ll} {t now x : Nat} {l : Spec.Log} {e : Env} {o : List Out}
    (r : Spec.Reach Spec.Any h mac c t l) (later : t ≤ now) (as : Spec.Any .fire e) (hx : Spec.held l = some x) (s : c.step now e .fire = some (c', o)) :
    ∃ t0, Spec.defending l = some t0 ∧ t0 + 9750 ≤ now ∧ o = [] ∧ Spec.held (l ++ [(now, .fire, o)]) = some x ∧ Spec.defending (l ++ [(now, .fire, o)]) = none := by
  obtain ⟨g, gh, gm⟩ := reach_good any_drawn r
  have hd := reach_defends any_drawn r
  have r' := Spec.Reach.step r later as s
  have hx' := reach_held any_drawn r'
  have hd' := reach_defends any_drawn r'
  rw [hx']
  rw [reach_held any_drawn r, heldBy_some] at hx
  obtain ⟨hst, rfl⟩ := hx
  cases step_trans g s with
  | calm due hs ht hdu =>
    obtain ⟨t0, e1, e2⟩ := hd.1 hs
    rw [ht] at e2
    simp only [Option.some.injEq, Prod.mk.injEq, true_and] at e2
    exact ⟨t0, e1, seconds_due e2 hdu, rfl, heldBy_some.mpr ⟨Or.inl rfl, rfl⟩, hd'.2 (by simp)⟩
  | first _ ht =>
    cases g.shape with
    | wait hs => rcases hs with hs | hs <;> rw [hs] at hst <;> simp at hst
    | _ => simp_all
  | again _ hs => rw [hs] at hst; simp at hst
  | announce _ hs => rw [hs] at hst; simp at hst
  | twice _ hs => rw [hs] at hst; simp at hst
  | got _ hs => rw [hs] at hst; simp at hst

/-- **C119**: a client that lost its address and did not give up starts again with a new one. -/
theorem tries_again {h : Wire.Host} {mac : List Byte} {c c' : Ll} {t now : Nat} {l : Spec.Log} {op : Op} {e : Env} {o : List Out} (hm : mac.length = 6)
    (r : Spec.Reach Spec.Any h mac c t l) (as : Spec.Any op e) (s : c.step now e op = some (c', o)) (hl : .lost ∈ o) (hn : .noLease ∉ o)
    {now' : Nat} {e' : Env} (hn' : now + 1000 ≤ now') (he' : Spec.Drawn e') :
    ∃ c'' p, c'.step now' e' .fire = some (c'', [.arp p]) ∧ Spec.Request mac 0 e'.ip p := by
  obtain ⟨g, gh, gm⟩ := reach_good any_drawn r
  have tr := step_trans g s
  have g' := trans_good g as tr
  have nol : ∀ c, ¬ Out.lost ∈ retiredOut c := by intro c hh; unfold retiredOut at hh; split at hh <;> simp at hh
  cases tr with
  | lost f hw hs h1 =>
    obtain ⟨r1, -, -, -, r5, r6, -⟩ := retired_ip c now e
    have hc : (c.conflicts + 1) % 256 < 10 := by
      unfold retiredOut at hn
      split at hn
      · assumption
      · simp at hn
    have ht : (retired c now e).timer = some (.sendProbe, now + delay e) := by
      unfold retired; dsimp only; rw [if_pos hc]
    have dl : delay e < 1000 := Nat.mod_lt _ (by decide)
    have := fire_first (now := now') (e := e') g' ht (by omega)
    refine ⟨_, _, this, ?_⟩
    rw [r1, r6, gm, if_pos rfl]
    exact packet_parts _ hm (by decide) he'.2
  | conflict => exact absurd hl (nol c)
  | _ => simp at hl

/-- **C119** (partial: ordinary questions count as well, see `questions_count`).  The client gives up only after at least ten packets that
named the address it was after or held. -/
theorem gives_up_partial {h : Wire.Host} {mac : List Byte} {c c' : Ll} {t now : Nat} {l : Spec.Log} {op : Op} {e : Env} {o : List Out} (hm : mac.length = 6)
    (r : Spec.Reach Spec.Any h mac c t l) (later : t ≤ now) (as : Spec.Any op e) (s : c.step now e op = some (c', o)) (hn : .noLease ∈ o) :
    10 ≤ Spec.hits (l ++ [(now, op, o)]) := by
  obtain ⟨g, gh, gm⟩ := reach_good any_drawn r
  have hc := (reach_counted hm any_drawn (Spec.Reach.step r later as s)).1
  refine Nat.le_trans ?_ hc
  cases step_trans g s with
  | lost =>
    rw [(retired_ip c now e).2.2.2.2.2.2.2]
    unfold retiredOut at hn
    split at hn
    · simp at hn
    · omega
  | conflict =>
    rw [(retired_ip c now e).2.2.2.2.2.2.2]
    unfold retiredOut at hn
    split at hn
    · simp at hn
    · omega
  | _ => simp at hn

/-- The rest of the way to the address. -/
def got0 : List (Nat × Env × Op) := calm0 ++ [(7515, env0, .fire)]

/-- A claim by another host. -/
def claim0 : Op := .recv (arpPacket .le mac1 0xa9fe0102 0xa9fe0102)

/-- A question of another host that has an address of its own. -/
def ask0 : Op := .recv (arpPacket .le mac1 0xa9fe0909 0xa9fe0102)

/-- What was not a frame, of each event. -/
def news (l : Spec.Log) : List (List Out) := l.map (fun x => x.2.2.filter (fun o => match o with | .arp _ => false | _ => true))

-- C119, non-vacuity: a claim is answered, a second one soon after ends it, and the client tries again with another address
example : ∃ c t l, Spec.Reach Spec.Sockets .le mac0 c t l ∧ Spec.held l = some 0xa9fe0102 ∧ Spec.defending l = none ∧
    (c.step 8000 env0 claim0).map (·.2) = some [.arp (arpPacket .le mac0 0xa9fe0102 0xa9fe0102)] := by
  obtain ⟨c, l, hp, hs⟩ : ∃ c l, play (new .le mac0) got0 = some (c, l) ∧ (Spec.held l = some 0xa9fe0102 ∧ Spec.defending l = none ∧
      (c.step 8000 env0 claim0).map (·.2) = some [.arp (arpPacket .le mac0 0xa9fe0102 0xa9fe0102)]) :=
    ⟨_, _, by unfold got0 calm0; rfl, by decide +kernel⟩
  obtain ⟨t, hr⟩ := play_reach (A := Spec.Sockets) (.init (h := .le) (mac := mac0)) (by unfold got0 calm0 Spec.Sockets Spec.Drawn; decide +kernel) (by decide +kernel) hp
  exact ⟨c, t, _, hr, hs⟩

example : (play (new .le mac0) (got0 ++ [(8000, env0, claim0), (17750, env0, .fire), (18000, env0, claim0), (19000, env0, claim0), (20005, { env0 with ip := 0xa9fe0202 }, .fire)])).map
      (fun r => (r.2.drop 8).map (·.2.2)) =
    some [[.arp (arpPacket .le mac0 0xa9fe0102 0xa9fe0102)], [], [.arp (arpPacket .le mac0 0xa9fe0102 0xa9fe0102)], [.lost], [.arp (arpPacket .le mac0 0 0xa9fe0202)]] := by
  decide +kernel

/-- **C119** fails for the number of conflicts: questions of other hosts for the address held, which are no conflicts, count too.  After nine of them the first
address that is lost is the last one. -/
theorem questions_count :
    (play (new .le mac0) (got0 ++ [(8000, env0, ask0), (8001, env0, ask0), (8002, env0, ask0), (8003, env0, ask0), (8004, env0, ask0), (8005, env0, ask0), (8006, env0, ask0),
        (8007, env0, ask0), (9000, env0, claim0), (9001, env0, claim0)])).map (fun r => (news r.2).drop 16) = some [[], [.lost, .noLease]] ∧
    (play (new .le mac0) (got0 ++ [(9000, env0, claim0), (9001, env0, claim0)])).map (fun r => (news r.2).drop 8) = some [[], [.lost]] := by
  decide +kernel

/-! ### C120: the address the getter gives -/

/-- **C120** (partial: the direction that holds; see `stale_address`).  While an address is held the getters give it and its mask; at other times the getter for the
address gives nothing or the address reported last and not lost since, and there is no mask. -/
theorem getters_partial {h : Wire.Host} {mac : List Byte} {c : Ll} {t : Nat} {l : Spec.Log} (r : Spec.Reach Spec.Any h mac c t l) :
    (∀ x, Spec.held l = some x → c.getAddress = some x ∧ c.getNetmask = some (bytes "255.255.0.0")) ∧
      (c.getAddress = none ∨ c.getAddress = Spec.reported l) ∧ (Spec.held l = none → c.getNetmask = none) := by
  obtain ⟨h1, h2⟩ := reach_assigned any_drawn r
  rw [reach_held any_drawn r]
  refine ⟨fun x hx => ⟨h2 x hx, ?_⟩, h1, fun hx => ?_⟩
  · rcases (heldBy_some.mp hx).1 with hs | hs <;> simp [Ll.getNetmask, hs]
  · unfold heldBy at hx
    split at hx
    · cases hx
    · rename_i hs
      unfold Ll.getNetmask
      split <;> simp_all

/-- **C120** fails after the client was stopped: the getter still gives the address, which is held by nobody; also after it is started again, while another one is
asked for. -/
theorem stale_address :
    (play (new .le mac0) (got0 ++ [(9000, env0, .stop)])).map (fun r => (r.1.getAddress, Spec.held r.2)) = some (some 0xa9fe0102, none) ∧
    (play (new .le mac0) (got0 ++ [(9000, { env0 with ip := 0xa9fe0202 }, .start), (10000, env0, .fire)])).map (fun r => (r.1.getAddress, r.1.ip, Spec.held r.2)) =
      some (some 0xa9fe0102, 0xa9fe0202, none) := by
  decide +kernel

-- C120, non-vacuity
example : (play (new .le mac0) got0).map (fun r => (r.1.getAddress, r.1.getNetmask, Spec.held r.2)) = some (some 0xa9fe0102, some (bytes "255.255.0.0"), some 0xa9fe0102) := by
  decide +kernel

/-! ### C121: addresses on a link -/

/-- **C121** (partial: all sockets work and frames arrive within half a second; see `deaf_shares`).  Whatever the hosts draw and when, whatever others send: no two hosts on
a link have the same address at the same time. -/
theorem unique_partial {n D : Nat} {host : Nat → Wire.Host} {mac : Nat → List Byte} {evs : List Ev} {l : Link} (hm : ∀ i < n, (mac i).length = 6) (hD : 2 * D < 1000)
    (he : ∀ ev ∈ evs, Spec.EvOk ev) (hr : (Link.start n host mac).run D evs = some l) {i j x : Nat} (hi : i < l.n) (hj : j < l.n) (hij : i ≠ j) (hx : (l.hosts i).addr = some x) :
    (l.hosts j).addr ≠ some x := by
  intro hy
  have ok := run_ok hD (start_ok n D host mac hm) he hr
  rw [ok.addr i hi, heldBy_some] at hx
  rw [ok.addr j hj, heldBy_some] at hy
  have on : ∀ k < l.n, ((l.hosts k).ll.state = .monitor ∨ (l.hosts k).ll.state = .defend) ∧ (l.hosts k).ll.ip = x → On (l.hosts k).ll x := by
    intro k hk h
    refine ⟨?_, h.2⟩
    cases hw : (l.hosts k).ll.watch with
    | true => rfl
    | false => have := (ok.good k hk).2.1 hw; rcases h.1 with h | h <;> simp_all
  rcases ok.pairs i hi j hj hij x (on i hi hx) (on j hj hy) with hb | hb
  · rcases hb.1 with hb | hb <;> rw [hb] at hy <;> simp at hy
  · rcases hb.1 with hb | hb <;> rw [hb] at hx <;> simp at hx

/-- Two hosts. -/
def link0 : Link := Link.start 2 (fun _ => .le) (fun i => if i = 0 then mac0 else mac1)

/-- The addresses. -/
def addrs (l : Option Link) : Option (Option Nat × Option Nat) := l.map (fun l => ((l.hosts 0).addr, (l.hosts 1).addr))

/-- The first host gets an address. -/
def getting : List Ev :=
  [.start 0 env0, .tick 5, .fire 0 env0, .deliver 0 false env0, .tick 1005, .fire 0 env0, .deliver 0 false env0, .tick 1005, .fire 0 env0, .deliver 0 false env0, .tick 2000,
   .fire 0 env0, .deliver 0 false env0, .tick 1750, .fire 0 env0, .deliver 0 false env0, .tick 1750, .fire 0 env0]

/-- What the second host draws the second time. -/
def env1 : Env := { env0 with ip := 0xa9fe0202 }

/-- The second host draws the same address, the kernel of the first one answers its probe, and it takes another one. -/
def second : List Ev :=
  [.start 1 env0, .tick 5, .fire 1 env0, .tick 100, .deliver 0 false env0, .tick 100, .deliver 0 false env1, .tick 5, .fire 1 env1, .deliver 0 false env0, .tick 1005, .fire 1 env1,
   .deliver 0 false env0, .tick 1005, .fire 1 env1, .deliver 0 false env0, .tick 2000, .fire 1 env1, .deliver 0 false env0, .tick 1750, .fire 1 env1, .deliver 0 false env0, .tick 1750,
   .fire 1 env1]

-- C121, non-vacuity: both hosts have an address in the end
example : addrs (link0.run 100 (getting ++ second)) = some (some 0xa9fe0102, some 0xa9fe0202) := by decide +kernel

example : ∀ ev ∈ getting ++ second, Spec.EvOk ev := by
  intro ev hev
  simp only [getting, second, List.cons_append, List.nil_append, List.mem_cons, List.not_mem_nil, or_false] at hev
  rcases hev with rfl | rfl | rfl | rfl | rfl | rfl | rfl | rfl | rfl | rfl | rfl | rfl | rfl | rfl | rfl | rfl | rfl | rfl | rfl | rfl | rfl | rfl | rfl | rfl | rfl | rfl | rfl | rfl | rfl |
    rfl | rfl | rfl | rfl | rfl | rfl | rfl | rfl | rfl | rfl | rfl | rfl | rfl <;> simp [Spec.EvOk, Spec.Drawn, env0, env1]

/-- The environment without sockets. -/
def env2 : Env := { env0 with opens := false }

/-- **C121** fails if the socket of one host cannot be opened: it does not hear the answers, and (if its timers are late) takes the address of the other. -/
theorem deaf_shares :
    addrs (link0.run 100 (getting ++
      [.start 1 env2, .tick 5, .fire 1 env2, .deliver 0 false env0, .deliver 0 false env2, .tick 1005, .fire 1 env2, .deliver 0 false env0, .deliver 0 false env2, .tick 1005, .fire 1 env2,
       .deliver 0 false env0, .deliver 0 false env2, .tick 2000, .fire 1 env2, .deliver 0 false env0, .deliver 0 false env2, .tick 9750, .fire 0 env0, .fire 1 env2, .deliver 0 false env0,
       .deliver 0 false env2, .tick 1750, .fire 1 env2])) = some (some 0xa9fe0102, some 0xa9fe0102) := by
  decide +kernel

end Verif.Ipv4ll
