import Verif.Proof.ServerStep
/-!
# Helper lemmas about the DHCP server: runs
-/
namespace Verif.Server
open Verif.C

theorem run_cons (s : Srv) (e : Step) (es : List Step) (t : Srv) (out : List Out) (h : run s (e :: es) = some (t, out)) :
    ∃ u o1 o2, recv s e.now e.pkt e.mem = some (u, o1) ∧ run u es = some (t, o2) ∧ out = o1 ++ o2 := by
  rw [run] at h
  cases h1 : recv s e.now e.pkt e.mem with
  | none => rw [h1] at h; cases h
  | some x =>
    rw [h1] at h
    simp only [Option.bind_eq_bind, Option.bind_some] at h
    cases h2 : run x.1 es with
    | none => rw [h2] at h; cases h
    | some y =>
      rw [h2] at h
      simp only [Option.bind_some, Option.some.injEq, Prod.mk.injEq] at h
      refine ⟨x.1, x.2, y.2, rfl, ?_, h.2.symm⟩
      rw [h2, ← h.1]

theorem run_inv : ∀ (es : List Step) (s : Srv), Inv s → s.endIp + 1 ≠ W32 →
    ∃ t out, run s es = some (t, out) ∧ Inv t ∧ Cfg s t := by
  intro es
  induction es with
  | nil => intro s h _; exact ⟨s, [], rfl, h, Cfg.refl s⟩
  | cons e es ih =>
    intro s h hW
    obtain ⟨u, o1, h1, c⟩ := recv_case h hW e.now e.pkt e.mem
    obtain ⟨hu, cu⟩ := c.inv h
    obtain ⟨t, o2, h2, ht, ct⟩ := ih u hu (by rw [cu.b]; exact hW)
    exact ⟨t, o1 ++ o2, by simp [run, h1, h2], ht, cu.trans ct⟩

/-- A step of a run, as a case. -/
theorem step_case {s t : Srv} {out : List Out} {now : Int} {p : Pkt} {mem : Bool} (h : Inv s) (hW : s.endIp + 1 ≠ W32)
    (hr : recv s now p mem = some (t, out)) : Case s now p mem t out := by
  obtain ⟨t', o', h1, c⟩ := recv_case h hW now p mem
  rw [hr] at h1; cases h1; exact c

/-- Properties kept by every step are kept by runs. -/
theorem run_keeps (P : Srv → Prop) (Q : Step → Prop)
    (hstep : ∀ s e t out, Inv s → P s → Q e → Case s e.now e.pkt e.mem t out → P t) :
    ∀ (es : List Step) (s t : Srv) (out : List Out), Inv s → s.endIp + 1 ≠ W32 → P s → (∀ e ∈ es, Q e) →
      run s es = some (t, out) → P t := by
  intro es
  induction es with
  | nil => intro s t out _ _ hp _ h; simp [run] at h; rw [← h.1]; exact hp
  | cons e es ih =>
    intro s t out hi hW hp hq h
    obtain ⟨u, o1, o2, h1, h2, -⟩ := run_cons s e es t out h
    have c := step_case hi hW h1
    obtain ⟨hu, cu⟩ := c.inv hi
    exact ih u t o2 hu (by rw [cu.b]; exact hW) (hstep s e u o1 hi hp (hq e (by simp)) c) (fun e he => hq e (by simp [he])) h2

/-- Properties of the output kept by every step. -/
theorem run_out (P : Srv → Prop) (Q : Step → Prop) (R : Out → Prop)
    (hstep : ∀ s e t out, Inv s → P s → Q e → Case s e.now e.pkt e.mem t out → P t ∧ ∀ o ∈ out, R o) :
    ∀ (es : List Step) (s t : Srv) (out : List Out), Inv s → s.endIp + 1 ≠ W32 → P s → (∀ e ∈ es, Q e) →
      run s es = some (t, out) → P t ∧ ∀ o ∈ out, R o := by
  intro es
  induction es with
  | nil => intro s t out _ _ hp _ h; simp [run] at h; rw [← h.1, h.2]; exact ⟨hp, by simp⟩
  | cons e es ih =>
    intro s t out hi hW hp hq h
    obtain ⟨u, o1, o2, h1, h2, ho⟩ := run_cons s e es t out h
    have c := step_case hi hW h1
    obtain ⟨hu, cu⟩ := c.inv hi
    have a := hstep s e u o1 hi hp (hq e (by simp)) c
    have b := ih u t o2 hu (by rw [cu.b]; exact hW) a.1 (fun e he => hq e (by simp [he])) h2
    refine ⟨b.1, ?_⟩
    intro o hm
    rw [ho] at hm
    rcases List.mem_append.1 hm with hm | hm
    · exact a.2 o hm
    · exact b.2 o hm

/-! ## Order -/

theorem ord_step (d : Nat) (s : Srv) (e : Step) (t : Srv) (out : List Out) (hi : Inv s)
    (hp : s.leaseSeconds = d ∧ Small s ∧ Ordered s) (hq : 0 ≤ e.now ∧ e.now + d < 2147483648)
    (c : Case s e.now e.pkt e.mem t out) : t.leaseSeconds = d ∧ Small t ∧ Ordered t := by
  obtain ⟨hd, hs, ho⟩ := hp
  refine ⟨by rw [(c.inv hi).2.d]; exact hd, ?_⟩
  cases c with
  | offer t id nip _ _ _ _ a =>
    refine ⟨?_, a.ord hs ho (by show (0 : Int) ≤ 300; omega) (by show (300 : Int) < 2147483648; omega)⟩
    intro l hl
    rcases (a.has l).1 hl with rfl | hl
    · exact ⟨by show (0 : Int) ≤ 300; omega, by show (300 : Int) < 2147483648; omega⟩
    · exact hs l hl.1
  | ack t id _ _ _ _ _ _ _ hh hord =>
    rw [hd] at hh hord
    refine ⟨?_, hord hs ho (by omega) (by omega)⟩
    intro l hl
    rcases (hh l).1 hl with rfl | hl
    · exact ⟨by show (0 : Int) ≤ e.now + d; omega, by show e.now + (d : Int) < 2147483648; omega⟩
    · exact hs l hl.1
  | decline t l _ _ _ _ _ _ r => exact ⟨fun x hx => hs x ((r.has x).1 hx).1, r.ord ho⟩
  | release t id l _ _ _ _ _ _ a =>
    have e1 : e.now % 4294967296 = e.now := Int.emod_eq_of_lt hq.1 (by omega)
    rw [e1] at a
    refine ⟨?_, a.ord hs ho (by show 0 ≤ e.now; omega) (by show e.now < 2147483648; omega)⟩
    intro x hx
    rcases (a.has x).1 hx with rfl | hx
    · exact ⟨by show 0 ≤ e.now; omega, by show e.now < 2147483648; omega⟩
    · exact hs x hx.1
  | _ => exact ⟨hs, ho⟩

theorem ordered_desc {s : Srv} (h : Ordered s) : Spec.Descending s := by
  unfold Spec.Descending
  unfold Ordered at h
  exact h.imp (fun {a b} hab l m hl hm => by simpa [ex, hl, hm] using hab)

/-- The last lease of an ordered list is the oldest. -/
theorem last_oldest {s : Srv} (hi : Inv s) (h : Ordered s) {id : Nat} {l : Lease} (hl : s.list.getLast? = some id)
    (hh : s.heap id = some l) : ∀ m, Has s m → l.expire ≤ m.expire := by
  rintro m ⟨j, hj⟩
  have hm : j ∈ s.list := (hi.live j).2 ⟨m, hj⟩
  unfold Ordered at h
  obtain ⟨ys, hy⟩ := List.getLast?_eq_some_iff.1 hl
  rw [hy] at hm h
  rcases List.mem_append.1 hm with hm | hm
  · have := (List.pairwise_append.1 h).2.2 j hm id (by simp)
    simpa [ex, hh, hj] using this
  · simp at hm; subst hm; rw [hh] at hj; cases hj; omega

/-! ## Counting -/

theorem length_le_of_nodup : ∀ (l m : List Nat), l.Nodup → (∀ x ∈ l, x ∈ m) → l.length ≤ m.length := by
  intro l
  induction l with
  | nil => intros; simp
  | cons x t ih =>
    intro m hn hs
    rw [List.nodup_cons] at hn
    have hx := hs x (by simp)
    have := ih (m.erase x) hn.2 (by
      intro y hy
      rw [List.mem_erase_of_ne (by rintro rfl; exact hn.1 hy)]
      exact hs y (by simp [hy]))
    rw [List.length_erase_of_mem hx] at this
    have : 0 < m.length := List.length_pos_of_mem hx
    simp only [List.length_cons]; omega

/-- If every address of `u` is leased to a client of `m`, `u` is not longer. -/
theorem full_count {s : Srv} (h : Inv s) (u m : List Nat) (hu : u.Nodup) (hall : ∀ ip ∈ u, ∃ l, Has s l ∧ l.nip = ip)
    (hm : ∀ l, Has s l → l.mac ∈ m) : u.length ≤ m.length := by
  have hex : ∀ ip, ∃ mac, ip ∈ u → ∃ l, Has s l ∧ l.nip = ip ∧ l.mac = mac := by
    intro ip
    by_cases hi : ip ∈ u
    · obtain ⟨l, a, b⟩ := hall ip hi; exact ⟨l.mac, fun _ => ⟨l, a, b, rfl⟩⟩
    · exact ⟨0, fun x => absurd x hi⟩
  obtain ⟨f, hf⟩ := Classical.axiomOfChoice hex
  rw [← List.length_map (f := f)]
  apply length_le_of_nodup
  · unfold List.Nodup at hu ⊢
    rw [List.pairwise_map]
    apply hu.imp_of_mem
    intro a b ha hb hab e
    obtain ⟨l, h1, h2, h3⟩ := hf a ha
    obtain ⟨k, h4, h5, h6⟩ := hf b hb
    have := h.uniq h1 h4 (Or.inr (h3.trans (e.trans h6.symm)))
    rw [this, h5] at h2; exact hab h2.symm
  · intro x hx
    obtain ⟨ip, h1, h2⟩ := List.mem_map.1 hx
    obtain ⟨l, h3, _, h4⟩ := hf ip h1
    rw [← h2, ← h4]; exact hm l h3

/-- The hardware addresses in the table come from packets. -/
theorem macs_step (m : List Nat) (s : Srv) (e : Step) (t : Srv) (out : List Out) (hi : Inv s)
    (hp : ∀ l, Has s l → l.mac ∈ m) (hq : e.pkt.mac ∈ m) (c : Case s e.now e.pkt e.mem t out) : ∀ l, Has t l → l.mac ∈ m := by
  intro l hl
  cases c with
  | offer t id nip _ _ _ _ a =>
    rcases (a.has l).1 hl with rfl | hl
    · exact hq
    · exact hp l hl.1
  | ack t id _ _ _ _ _ _ _ hh _ =>
    rcases (hh l).1 hl with rfl | hl
    · exact hq
    · exact hp l hl.1
  | decline t l _ _ _ _ _ _ r => exact hp _ ((r.has _).1 hl).1
  | release t id l' _ _ _ hl' hm _ a =>
    rcases (a.has l).1 hl with rfl | hl
    · exact hm ▸ hq
    · exact hp l hl.1
  | _ => exact hp l hl

end Verif.Server
